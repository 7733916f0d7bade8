import Verif.Model.Elements
import Verif.Props.LearnFill
import Verif.Props.Create
import Mathlib.Data.List.Nodup
import Mathlib.Tactic.Tauto

/-!
# C85: transformElements
-/

namespace Nimble.Elements
open Nimble.Match Nimble.LearnFill Nimble.Obj

/-! ## Specification -/

/-- What a value is, apart from how it is stored: missing, a number or a string. -/
inductive Canon where
  | missing
  | num (f : Flt)
  | str (s : String)
  deriving DecidableEq

/-- `None` and nan are missing; a boolean is 0 or 1. -/
def canon : Val → Canon
  | .none => .missing
  | .bool _ b => .num (.fin (if b then 1 else 0))
  | .int _ i => .num (.fin i)
  | .flt _ .nan => .missing
  | .flt _ f => .num f
  | .str s => .str s

/-- The function maps 0 to 0 and takes only the value, or the user says that zeros are to be preserved. -/
def ZerosKept (fn : Fn) (preserveZeros : Bool) : Prop :=
  preserveZeros = true ∨ (∀ f, fn ≠ .three f) ∧
    ∃ r, fn.call (.int false 0) 0 0 = .ok (some r) ∧ canon r = .num (.fin 0)

/-- What becomes of the value `v` at `(i, j)`. -/
inductive NewValue (fn : Fn) (preserveZeros skipNone : Bool) (v : Val) (i j : Nat) : Val → Prop
  | zero (hz : ZerosKept fn preserveZeros) (hv : canon v = .num (.fin 0)) :
      NewValue fn preserveZeros skipNone v i j (.flt false (.fin 0))
  | skipped (hz : ¬ (ZerosKept fn preserveZeros ∧ canon v = .num (.fin 0))) (hs : skipNone = true)
      (hr : fn.call v i j = .ok (some .none)) : NewValue fn preserveZeros skipNone v i j v
  | value (hz : ¬ (ZerosKept fn preserveZeros ∧ canon v = .num (.fin 0))) (w : Val) (hs : skipNone = true → w ≠ .none)
      (hr : fn.call v i j = .ok (some w)) : NewValue fn preserveZeros skipNone v i j w

/-- Exactly the selected elements are changed, to their new values. -/
structure Transformed (fn : Fn) (preserveZeros skipNone : Bool) (wantP wantF : Nat → Bool) (o o' : Obj Val) :
    Prop where
  wf : o'.WF
  pts : o'.pts = o.pts
  fts : o'.fts = o.fts
  changed : ∀ i j v, o.elem? i j = some v → wantP i = true → wantF j = true →
    ∃ w, o'.elem? i j = some w ∧ NewValue fn preserveZeros skipNone v i j w
  kept : ∀ i j, ¬ (wantP i = true ∧ wantF j = true) → o'.elem? i j = o.elem? i j

/-- What two calls return is the same. -/
def RetSame (skipNone : Bool) : Res (Option Val) → Res (Option Val) → Prop
  | .ok (some r), .ok (some r') => canon r = canon r' ∧ (skipNone = true → (r = .none ↔ r' = .none))
  | .ok none, .ok none => True
  | .error e, .error e' => e = e'
  | _, _ => False

/-- The function does not distinguish values which are the same but stored differently (1, 1.0, True; None, nan). -/
def Fn.OfValue (fn : Fn) (skipNone : Bool) : Prop :=
  ∀ a b i j, canon a = canon b → RetSame skipNone (fn.call a i j) (fn.call b i j)

/-- The same elements, names and shape, apart from how the elements are stored. -/
structure SameObj (o o' : Obj Val) : Prop where
  pts : o'.pts = o.pts
  fts : o'.fts = o.fts
  elems : ∀ i j, (o'.elem? i j).map canon = (o.elem? i j).map canon

/-- The same elements (apart from how they are stored), names and shape. -/
structure SameShown (o o' : Obj Val) : Prop where
  plen : o'.pts.len = o.pts.len
  flen : o'.fts.len = o.fts.len
  pnames : o'.pts.getNames = o.pts.getNames
  fnames : o'.fts.getNames = o.fts.getNames
  elems : ∀ i j, (o'.elem? i j).map canon = (o.elem? i j).map canon

/-- The first point consists of different strings (its first element apart, see `Header`) and the second has a number:
what `nimble.data` takes for a row of feature names. -/
def FirstPointIsHeader (str : Val → String) (o : Obj Val) : Prop :=
  ∃ first second rest, o.data = first :: second :: rest ∧ Header (valOps str) first second

/-! ## Lemmas -/

theorem pyEq_zero (v : Val) : pyEq v zeroVal = true ↔ canon v = .num (.fin 0) := by
  unfold zeroVal
  cases v with
  | none => simp [pyEq, canon, numEq, Val.num]
  | bool np b => cases b <;> simp [pyEq, canon, numEq, Val.num, Flt.eq]
  | int np i => simp [pyEq, canon, numEq, Val.num, Flt.eq]
  | flt np f => cases f <;> simp [pyEq, canon, numEq, Val.num, Flt.eq]
  | str s => simp [pyEq, canon, numEq, Val.num]

theorem preserve_iff (fn : Fn) (pz : Bool) : fn.preserve pz = true ↔ ZerosKept fn pz := by
  unfold Fn.preserve ZerosKept
  rw [Bool.or_eq_true, Bool.and_eq_true]
  have h1 : fn.oneArg = true ↔ ∀ f, fn ≠ .three f := by
    cases fn <;> simp [Fn.oneArg]
  have h2 : fn.keepsZero = true ↔ ∃ r, fn.call (.int false 0) 0 0 = .ok (some r) ∧ canon r = .num (.fin 0) := by
    unfold Fn.keepsZero
    show (match fn.call (.int false 0) 0 0 with | .ok (some r) => pyEq r zeroVal | _ => false) = true ↔ _
    cases hc : fn.call (.int false 0) 0 0 with
    | error e => simp
    | ok r =>
      cases r with
      | none => simp
      | some r =>
        dsimp only
        rw [pyEq_zero]
        simp
  rw [h1, h2]

theorem validated_new {fn : Fn} {pz sk : Bool} {v w : Val} {i j : Nat} (h : fn.validated pz sk v i j = .ok w) :
    NewValue fn pz sk v i j w := by
  unfold Fn.validated at h
  by_cases hz : fn.preserve pz = true ∧ pyEq v zeroVal = true
  · rw [if_pos hz] at h
    cases h
    exact .zero ((preserve_iff _ _).mp hz.1) ((pyEq_zero v).mp hz.2)
  · rw [if_neg hz] at h
    rw [preserve_iff, pyEq_zero] at hz
    simp only [bind, Except.bind] at h
    cases hc : fn.call v i j with
    | error e => rw [hc] at h; cases h
    | ok r =>
      rw [hc] at h
      cases r with
      | none => cases h
      | some r =>
        simp only [checkReturn] at h
        by_cases hn : r = .none ∧ sk = true
        · rw [if_pos hn] at h
          cases h
          exact .skipped hz hn.2 (by rw [hc, hn.1])
        · rw [if_neg hn] at h
          cases h
          exact .value hz w (fun hs he => hn ⟨he, hs⟩) hc

theorem validated_of_new {fn : Fn} {pz sk : Bool} {v w : Val} {i j : Nat} (h : NewValue fn pz sk v i j w) :
    fn.validated pz sk v i j = .ok w := by
  unfold Fn.validated
  cases h with
  | zero hz hv => rw [if_pos ⟨(preserve_iff _ _).mpr hz, (pyEq_zero v).mpr hv⟩]
  | skipped hz hs hr =>
    rw [if_neg (by rw [preserve_iff, pyEq_zero]; exact hz)]
    simp [hr, checkReturn, hs, bind, Except.bind]
  | value hz _ hs hr =>
    rw [if_neg (by rw [preserve_iff, pyEq_zero]; exact hz)]
    simp only [hr, checkReturn, bind, Except.bind]
    rw [if_neg (fun hn => hs hn.2 hn.1)]

theorem listLoop_frame (g : Val → Nat → Nat → Res Val) (l : Option (List Nat) × Option (List Nat)) :
    ∀ (ps : List (Nat × Nat)) {o : Obj Val}, o.WF → (listLoop g l ps o).1.WF ∧ (listLoop g l ps o).1.pts = o.pts ∧
      (listLoop g l ps o).1.fts = o.fts
  | [], o, h => ⟨h, rfl, rfl⟩
  | p :: ps, o, h => by
    simp only [listLoop]
    split
    · split
      · exact ⟨h, rfl, rfl⟩
      · split
        · exact ⟨h, rfl, rfl⟩
        · exact listLoop_frame g l ps (setElem_wf h _ _ _)
    · exact listLoop_frame g l ps h

theorem listLoop_elem (g : Val → Nat → Nat → Res Val) (l : Option (List Nat) × Option (List Nat)) :
    ∀ (ps : List (Nat × Nat)) (o : Obj Val), ps.Nodup → (listLoop g l ps o).2 = .ok () → ∀ a b v,
      o.elem? a b = some v → ∃ w, (listLoop g l ps o).1.elem? a b = some w ∧
        ((a, b) ∈ ps ∧ selected l (a, b) = true → g v a b = .ok w) ∧
        (¬ ((a, b) ∈ ps ∧ selected l (a, b) = true) → w = v)
  | [], o, _, _, a, b, v, hv => ⟨v, hv, by simp, fun _ => rfl⟩
  | p :: ps, o, hn, hok, a, b, v, hv => by
    obtain ⟨i, j⟩ := p
    rw [List.nodup_cons] at hn
    simp only [listLoop] at hok ⊢
    by_cases hs : selected l (i, j) = true
    · rw [if_pos hs] at hok ⊢
      cases he : o.elem? i j with
      | none => rw [he] at hok; cases hok
      | some x =>
        rw [he] at hok
        dsimp only at hok ⊢
        cases hg : g x i j with
        | error e => rw [hg] at hok; cases hok
        | ok w =>
          rw [hg] at hok
          dsimp only at hok ⊢
          by_cases hab : a = i ∧ b = j
          · obtain ⟨rfl, rfl⟩ := hab
            rw [hv] at he
            cases he
            have hv' : (setElem o a b w).elem? a b = some w := by rw [elem_setElem, if_pos ⟨rfl, rfl⟩, hv]; rfl
            obtain ⟨w', h1, h2, h3⟩ := listLoop_elem g l ps _ hn.2 hok a b w hv'
            have := h3 (fun h => hn.1 h.1)
            subst this
            exact ⟨w', h1, fun _ => hg, fun hno => absurd ⟨List.mem_cons_self, hs⟩ hno⟩
          · have hv' : (setElem o i j w).elem? a b = some v := by rw [elem_setElem, if_neg hab, hv]
            obtain ⟨w', h1, h2, h3⟩ := listLoop_elem g l ps _ hn.2 hok a b v hv'
            have hmem : (a, b) ∈ (i, j) :: ps ↔ (a, b) ∈ ps := by
              rw [List.mem_cons, Prod.mk.injEq]; tauto
            rw [hmem]
            exact ⟨w', h1, h2, h3⟩
    · rw [if_neg hs] at hok ⊢
      obtain ⟨w', h1, h2, h3⟩ := listLoop_elem g l ps o hn.2 hok a b v hv
      refine ⟨w', h1, ?_, ?_⟩
      · rintro ⟨hm, hsel⟩
        rcases List.mem_cons.mp hm with he | hm
        · cases he; exact absurd hsel hs
        · exact h2 ⟨hm, hsel⟩
      · intro hno
        exact h3 (fun h => hno ⟨List.mem_cons_of_mem _ h.1, h.2⟩)

theorem listLoop_elem_none (g : Val → Nat → Nat → Res Val) (l : Option (List Nat) × Option (List Nat)) :
    ∀ (ps : List (Nat × Nat)) (o : Obj Val) (a b : Nat), o.elem? a b = none → (listLoop g l ps o).1.elem? a b = none
  | [], _, _, _, h => h
  | p :: ps, o, a, b, h => by
    simp only [listLoop]
    split
    · split
      · exact h
      · split
        · exact h
        · refine listLoop_elem_none g l ps _ a b ?_
          rw [elem_setElem]
          split
          · rename_i heq; obtain ⟨rfl, rfl⟩ := heq; rw [h]; rfl
          · exact h
    · exact listLoop_elem_none g l ps o a b h

/-- The loop ends well exactly if the function does so at every selected element. -/
theorem listLoop_ok_iff (g : Val → Nat → Nat → Res Val) (l : Option (List Nat) × Option (List Nat)) :
    ∀ (ps : List (Nat × Nat)) (o : Obj Val), ps.Nodup → ((listLoop g l ps o).2 = .ok () ↔
      ∀ p ∈ ps, selected l p = true → ∃ v w, o.elem? p.1 p.2 = some v ∧ g v p.1 p.2 = .ok w)
  | [], o, _ => by simp [listLoop]
  | p :: ps, o, hn => by
    rw [List.nodup_cons] at hn
    simp only [listLoop]
    by_cases hs : selected l p = true
    · rw [if_pos hs]
      cases he : o.elem? p.1 p.2 with
      | none =>
        constructor
        · intro h; cases h
        · intro h
          obtain ⟨v, w, h1, _⟩ := h p List.mem_cons_self hs
          rw [he] at h1; cases h1
      | some x =>
        dsimp only
        cases hg : g x p.1 p.2 with
        | error e =>
          constructor
          · intro h; cases h
          · intro h
            obtain ⟨v, w, h1, h2⟩ := h p List.mem_cons_self hs
            rw [he] at h1; cases h1
            rw [hg] at h2; cases h2
        | ok w =>
          dsimp only
          rw [listLoop_ok_iff g l ps _ hn.2]
          have key : ∀ q ∈ ps, (setElem o p.1 p.2 w).elem? q.1 q.2 = o.elem? q.1 q.2 := by
            intro q hq
            rw [elem_setElem, if_neg]
            rintro ⟨h1, h2⟩
            apply hn.1
            have : q = p := Prod.ext h1 h2
            rwa [← this]
          constructor
          · intro h q hq hsel
            rcases List.mem_cons.mp hq with rfl | hq
            · exact ⟨x, w, he, hg⟩
            · have := h q hq hsel
              rwa [key q hq] at this
          · intro h q hq hsel
            have := h q (List.mem_cons_of_mem _ hq) hsel
            rwa [key q hq]
    · rw [if_neg hs, listLoop_ok_iff g l ps o hn.2]
      constructor
      · intro h q hq hsel
        rcases List.mem_cons.mp hq with rfl | hq
        · exact absurd hsel hs
        · exact h q hq hsel
      · exact fun h q hq => h q (List.mem_cons_of_mem _ hq)

theorem cells_nodup (n m : Nat) : (cells n m).Nodup := by
  unfold cells
  rw [List.nodup_flatMap]
  refine ⟨?_, ?_⟩
  · intro i _
    refine List.Nodup.map ?_ List.nodup_range
    intro a b h
    exact (Prod.mk.inj h).2
  · refine List.Pairwise.imp ?_ (List.nodup_range (n := n))
    intro a b hab
    rw [Function.onFun, List.disjoint_left]
    intro x hx hy
    obtain ⟨_, _, rfl⟩ := List.mem_map.mp hx
    obtain ⟨_, _, he⟩ := List.mem_map.mp hy
    exact hab (Prod.mk.inj he).1.symm

theorem elem_lt {o : Obj Val} (h : o.WF) {i j : Nat} {v : Val} (hv : o.elem? i j = some v) :
    i < o.pts.len ∧ j < o.fts.len := by
  by_contra hc
  rw [elem_none h hc] at hv
  cases hv

theorem elem_some {o : Obj Val} (h : o.WF) {i j : Nat} (hi : i < o.pts.len) (hj : j < o.fts.len) :
    ∃ v, o.elem? i j = some v := by
  obtain ⟨r, h1, _, l1⟩ := h.vector_point hi
  exact ⟨r[j], by simp [Obj.elem?, h1, l1, hj]⟩

/-! ## C85 -/

/-- **C85 (transformElements, List and DataFrame).**  When `transformElements` succeeds, every element of the given
points and features has become what the function returns for it (0.0 if it is zero and zeros are preserved, itself if
`None` is returned and to be skipped), and every other element, the names and the shape are unchanged. -/
theorem C85_transform {fn : Fn} {pz sk : Bool} {points features : Limit} {o o' : Obj Val} (h : o.WF)
    (hr : transformElements fn pz sk points features o = (o', .ok ())) :
    ∃ wantP wantF, Denotes o.pts points.idents wantP ∧ Denotes o.fts features.idents wantF ∧
      Transformed fn pz sk wantP wantF o o' := by
  unfold transformElements at hr
  cases hl : limits o points features with
  | error e => rw [hl] at hr; cases hr
  | ok l =>
    rw [hl] at hr
    dsimp only at hr
    obtain ⟨d1, d2⟩ := limits_ok hl
    refine ⟨inLimit l.1, inLimit l.2, d1, d2, ?_⟩
    have hfr := listLoop_frame (fn.validated pz sk) l (cells o.pts.len o.fts.len) h
    have hok : (listLoop (fn.validated pz sk) l (cells o.pts.len o.fts.len) o).2 = .ok () := by rw [hr]
    have hel := listLoop_elem (fn.validated pz sk) l (cells o.pts.len o.fts.len) o (cells_nodup _ _) hok
    have hno := listLoop_elem_none (fn.validated pz sk) l (cells o.pts.len o.fts.len) o
    rw [hr] at hfr hel hno
    refine ⟨hfr.1, hfr.2.1, hfr.2.2, ?_, ?_⟩
    · intro i j v hv hp hf
      obtain ⟨w, h1, h2, _⟩ := hel i j v hv
      refine ⟨w, h1, validated_new (h2 ⟨mem_cells.mpr (elem_lt h hv), ?_⟩)⟩
      simp [selected, hp, hf]
    · intro i j hn
      cases hv : o.elem? i j with
      | none => exact hno i j hv
      | some v =>
        obtain ⟨w, h1, _, h3⟩ := hel i j v hv
        rw [h1, h3]
        rintro ⟨_, hsel⟩
        simp only [selected, Bool.and_eq_true] at hsel
        exact hn hsel

/-- **C85 (transformElements succeeds)** for every valid choice of points and features exactly if the function returns
an element, wherever it is asked. -/
theorem C85_transform_succeeds {fn : Fn} {pz sk : Bool} {points features : Limit} {o : Obj Val} (h : o.WF)
    {l : Option (List Nat) × Option (List Nat)} (hl : limits o points features = .ok l) :
    (transformElements fn pz sk points features o).2 = .ok () ↔
      ∀ i j v, o.elem? i j = some v → inLimit l.1 i = true → inLimit l.2 j = true →
        ∃ w, NewValue fn pz sk v i j w := by
  unfold transformElements
  rw [hl]
  dsimp only
  rw [listLoop_ok_iff _ _ _ _ (cells_nodup _ _)]
  constructor
  · intro hh i j v hv hp hf
    obtain ⟨v', w, h1, h2⟩ := hh (i, j) (mem_cells.mpr (elem_lt h hv)) (by simp [selected, hp, hf])
    rw [hv] at h1
    cases h1
    exact ⟨w, validated_new h2⟩
  · rintro hh ⟨i, j⟩ hm hs
    obtain ⟨hi, hj⟩ := mem_cells.mp hm
    obtain ⟨v, hv⟩ := elem_some h hi hj
    simp only [selected, Bool.and_eq_true] at hs
    obtain ⟨w, hw⟩ := hh i j v hv hs.1 hs.2
    exact ⟨v, w, hv, validated_of_new hw⟩

/-- **C85 (dictionaries).**  A dictionary stands for the function that gives the value of a key to the elements equal to
the key, and leaves the others as they are. -/
theorem C85_dict {d : List (Val × Val)} (hd : d.Pairwise (fun p q => ∀ v, ¬ (pyEq p.1 v = true ∧ pyEq q.1 v = true)))
    (v : Val) (i j : Nat) :
    (∀ k w, (k, w) ∈ d → pyEq k v = true → (Fn.dict d).call v i j = .ok (some w)) ∧
    ((∀ p ∈ d, pyEq p.1 v = false) → (Fn.dict d).call v i j = .ok (some v)) := by
  simp only [Fn.call, dictValue]
  constructor
  · intro k w hm hk
    induction d with
    | nil => cases hm
    | cons p d ih =>
      rw [List.pairwise_cons] at hd
      rw [List.find?_cons]
      cases hp : pyEq p.1 v with
      | true =>
        rcases List.mem_cons.mp hm with rfl | hm
        · rfl
        · exact absurd ⟨hp, hk⟩ (hd.1 _ hm v)
      | false =>
        rcases List.mem_cons.mp hm with rfl | hm
        · rw [hk] at hp; cases hp
        · exact ih hd.2 hm
  · intro h
    rw [List.find?_eq_none.mpr (fun p hp => by rw [h p hp]; decide)]
    rfl

/-- The keys 1 and "a". -/
example : [((.int false 1 : Val), (.str "x" : Val)), (.str "a", .none)].Pairwise
    (fun p q => ∀ v, ¬ (pyEq p.1 v = true ∧ pyEq q.1 v = true)) := by
  simp only [List.pairwise_cons, List.mem_singleton, forall_eq, List.not_mem_nil, false_imp_iff, implies_true, List.Pairwise.nil, and_true]
  intro v
  cases v <;> simp [pyEq, numEq, Val.num]

/-! ### Matrix -/

theorem canon_toFloat {v : Val} (h : v.num.isSome = true ∨ v = .none) : canon (toFloat v) = canon v := by
  cases v with
  | none => rfl
  | bool np b => rfl
  | int np i => rfl
  | flt np f => cases f <;> rfl
  | str s => simp [Val.num] at h

/-- The values an array of this type can hold. -/
def Typed (dt : DT) (v : Val) : Prop :=
  match dt with
  | .bool => ∃ np b, v = .bool np b
  | .int => ∃ np i, v = .int np i
  | .float => ∃ np f, v = .flt np f
  | .obj => True

theorem cast_ok {dt dt' : DT} {v w : Val} (ht : Typed dt v) (h : nextType dt w = dt') (hne : dt' ≠ dt) :
    canon (castArray dt' v) = canon v ∧ Typed dt' (castArray dt' v) := by
  subst h
  unfold nextType at hne ⊢
  split
  · exact ⟨rfl, trivial⟩
  · rename_i h1
    rw [if_neg h1] at hne
    split
    · rename_i h2
      rw [if_pos h2] at hne
      have hn : v.num.isSome = true := by
        cases dt with
        | bool => obtain ⟨_, _, rfl⟩ := ht; rfl
        | int => obtain ⟨_, _, rfl⟩ := ht; rfl
        | float => exact absurd rfl hne
        | obj => exact absurd rfl h2.2.2
      refine ⟨canon_toFloat (.inl hn), ?_⟩
      show Typed .float (toFloat v)
      unfold toFloat
      cases v.num with
      | none => exact ⟨_, _, rfl⟩
      | some f => exact ⟨_, _, rfl⟩
    · rename_i h2
      rw [if_neg h2] at hne
      exact absurd rfl hne

theorem assign_ok {dt : DT} (hd : dt ≠ .bool) (w : Val) :
    canon (assign (nextType dt w) w) = canon w ∧ Typed (nextType dt w) (assign (nextType dt w) w) ∧
      nextType dt w ≠ .bool := by
  cases w with
  | none => cases dt <;> simp_all [nextType, assign, nonNumeric, numeric, isNumberType, floating, Typed, toFloat, canon, Val.num]
  | bool np b =>
    cases dt <;> simp_all [nextType, assign, nonNumeric, numeric, isNumberType, floating, Typed, boolean]
  | int np i =>
    cases dt <;> simp_all [nextType, assign, nonNumeric, numeric, isNumberType, floating, Typed, boolean, toFloat, canon, Val.num]
  | flt np f =>
    cases dt <;> cases f <;> simp_all [nextType, assign, nonNumeric, numeric, isNumberType, floating, Typed, boolean, toFloat, canon, Val.num]
  | str s =>
    cases dt <;> simp_all [nextType, assign, nonNumeric, numeric, isNumberType, floating, Typed, boolean]

/-- Both loops are at the same place. -/
structure Sim (o : Obj Val) (m : Mat) : Prop where
  same : SameObj o m.o
  dt : m.dt ≠ .bool
  typed : ∀ i j v, m.o.elem? i j = some v → Typed m.dt v

theorem elem_map (o : Obj Val) (f : Val → Val) (i j : Nat) :
    ({ o with data := o.data.map (List.map f) } : Obj Val).elem? i j = (o.elem? i j).map f := by
  unfold Obj.elem?
  dsimp only
  rw [List.getElem?_map]
  cases o.data[i]? <;> simp

theorem modify_sim {o : Obj Val} {m : Mat} (S : Sim o m) {w w' : Val} (hw : canon w' = canon w) (i j : Nat) :
    Sim (setElem o i j w) (m.modify i j w') := by
  obtain ⟨a1, a2, a3⟩ := assign_ok S.dt w'
  have hbase : ∀ a b, ((if nextType m.dt w' = m.dt then m.o else
      { m.o with data := m.o.data.map (List.map (castArray (nextType m.dt w'))) }).elem? a b).map canon =
        (o.elem? a b).map canon ∧
      ∀ v, (if nextType m.dt w' = m.dt then m.o else
      { m.o with data := m.o.data.map (List.map (castArray (nextType m.dt w'))) }).elem? a b = some v →
        Typed (nextType m.dt w') v := by
    intro a b
    split
    · rename_i heq
      refine ⟨S.same.elems a b, ?_⟩
      intro v hv
      rw [heq]
      exact S.typed a b v hv
    · rename_i hne
      rw [elem_map]
      cases hv : m.o.elem? a b with
      | none =>
        have := S.same.elems a b
        rw [hv] at this
        refine ⟨this, ?_⟩
        intro v h; cases h
      | some v =>
        obtain ⟨c1, c2⟩ := cast_ok (S.typed a b v hv) (w := w') rfl hne
        have := S.same.elems a b
        rw [hv] at this
        refine ⟨?_, ?_⟩
        · rw [← this]
          simp [c1]
        · intro x hx
          cases hx
          exact c2
  refine ⟨⟨?_, ?_, ?_⟩, a3, ?_⟩
  · show (setElem _ _ _ _).pts = (setElem _ _ _ _).pts
    simp only [setElem]
    split <;> exact S.same.pts
  · show (setElem _ _ _ _).fts = (setElem _ _ _ _).fts
    simp only [setElem]
    split <;> exact S.same.fts
  · intro a b
    show ((setElem _ i j _).elem? a b).map canon = _
    rw [elem_setElem, elem_setElem]
    by_cases hab : a = i ∧ b = j
    · rw [if_pos hab, if_pos hab]
      have := (hbase i j).1
      revert this
      generalize Obj.elem? _ i j = x
      cases x <;> cases o.elem? i j <;> intro this <;> simp_all
    · rw [if_neg hab, if_neg hab]
      exact (hbase a b).1
  · intro a b v hv
    change (setElem _ i j _).elem? a b = some v at hv
    rw [elem_setElem] at hv
    by_cases hab : a = i ∧ b = j
    · rw [if_pos hab] at hv
      revert hv
      generalize Obj.elem? _ i j = x
      cases x with
      | none => intro h; cases h
      | some x =>
        intro h
        cases h
        exact a2
    · rw [if_neg hab] at hv
      exact (hbase a b).2 v hv

/-- Two calls on the same value. -/
theorem validated_same {fn : Fn} {pz sk : Bool} (hf : fn.OfValue sk) {a b : Val} (hab : canon a = canon b) (i j : Nat) :
    (∃ e, fn.validated pz sk a i j = .error e ∧ fn.validated pz sk b i j = .error e) ∨
    ∃ w w', fn.validated pz sk a i j = .ok w ∧ fn.validated pz sk b i j = .ok w' ∧ canon w = canon w' := by
  unfold Fn.validated
  have hz : pyEq a zeroVal = pyEq b zeroVal := by
    rw [Bool.eq_iff_iff, pyEq_zero, pyEq_zero, hab]
  rw [hz]
  by_cases hc : fn.preserve pz = true ∧ pyEq b zeroVal = true
  · rw [if_pos hc, if_pos hc]
    exact .inr ⟨_, _, rfl, rfl, rfl⟩
  · rw [if_neg hc, if_neg hc]
    have h := hf a b i j hab
    simp only [bind, Except.bind]
    cases ha : fn.call a i j with
    | error e =>
      cases hb : fn.call b i j with
      | error e' => rw [ha, hb] at h; exact .inl ⟨e, rfl, by have : e = e' := h; rw [this]⟩
      | ok r => rw [ha, hb] at h; cases r <;> exact absurd h id
    | ok r =>
      cases hb : fn.call b i j with
      | error e' => rw [ha, hb] at h; cases r <;> exact absurd h id
      | ok r' =>
        rw [ha, hb] at h
        cases r with
        | none =>
          cases r' with
          | none => exact .inl ⟨_, rfl, rfl⟩
          | some r' => exact absurd h id
        | some r =>
          cases r' with
          | none => exact absurd h id
          | some r' =>
            obtain ⟨h1, h2⟩ := h
            right
            simp only [checkReturn]
            cases sk with
            | false => simp only [Bool.false_eq_true, and_false, if_false]; exact ⟨_, _, rfl, rfl, h1⟩
            | true =>
              have h3 := h2 rfl
              by_cases hr : r = .none
              · rw [if_pos ⟨hr, rfl⟩, if_pos ⟨h3.mp hr, rfl⟩]
                exact ⟨_, _, rfl, rfl, hab⟩
              · rw [if_neg (fun h => hr h.1), if_neg (fun h => hr (h3.mpr h.1))]
                exact ⟨_, _, rfl, rfl, h1⟩

theorem matLoop_sim {fn : Fn} {pz sk : Bool} (hf : fn.OfValue sk) (l : Option (List Nat) × Option (List Nat)) :
    ∀ (ps : List (Nat × Nat)) {o : Obj Val} {m : Mat}, Sim o m →
      (matLoop (fn.validated pz sk) l ps m).2 = (listLoop (fn.validated pz sk) l ps o).2 ∧
      SameObj (listLoop (fn.validated pz sk) l ps o).1 (matLoop (fn.validated pz sk) l ps m).1.o
  | [], o, m, S => ⟨rfl, S.same⟩
  | p :: ps, o, m, S => by
    simp only [matLoop, listLoop]
    by_cases hs : selected l p = true
    · rw [if_pos hs, if_pos hs]
      have he := S.same.elems p.1 p.2
      cases hv : o.elem? p.1 p.2 with
      | none =>
        rw [hv] at he
        have : m.o.elem? p.1 p.2 = none := by
          cases hm : m.o.elem? p.1 p.2 with
          | none => rfl
          | some x => rw [hm] at he; cases he
        rw [this]
        exact ⟨rfl, S.same⟩
      | some v =>
        cases hm : m.o.elem? p.1 p.2 with
        | none => rw [hv, hm] at he; cases he
        | some x =>
          rw [hv, hm] at he
          have hc : canon x = canon v := by simpa using he
          dsimp only
          rcases validated_same (pz := pz) hf hc p.1 p.2 with ⟨e, h1, h2⟩ | ⟨w, w', h1, h2, h3⟩
          · rw [h1, h2]
            exact ⟨rfl, S.same⟩
          · rw [h1, h2]
            exact matLoop_sim hf l ps (modify_sim S h3 p.1 p.2)
    · rw [if_neg hs, if_neg hs]
      exact matLoop_sim hf l ps S

/-- **C85 (Matrix).**  A Matrix whose array is not an array of booleans ends with the same elements as a List with the
same elements, or with the same exception, for every function that does not distinguish 1, 1.0 and True; whatever type
the array has and however often it changes on the way. -/
theorem C85_matrix {fn : Fn} {pz sk : Bool} {points features : Limit} {o : Obj Val} {m : Mat} (hf : fn.OfValue sk)
    (hs : SameObj o m.o) (hd : m.dt ≠ .bool) (ht : ∀ i j v, m.o.elem? i j = some v → Typed m.dt v) :
    (m.transformElements fn pz sk points features).2 = (transformElements fn pz sk points features o).2 ∧
    SameObj (transformElements fn pz sk points features o).1 (m.transformElements fn pz sk points features).1.o := by
  unfold Mat.transformElements transformElements
  have hl : limits m.o points features = limits o points features := by
    unfold limits
    rw [hs.pts, hs.fts]
  rw [hl, hs.pts, hs.fts]
  cases limits o points features with
  | error e => exact ⟨rfl, hs⟩
  | ok l => exact matLoop_sim hf l _ ⟨hs, hd, ht⟩

/-- **C85 violated (boolean Matrix).**  An integer put into an array of booleans becomes a boolean: with a function
that returns 5 for everything, a List holds 5 afterwards and the Matrix holds True. -/
theorem C85_bool_matrix_violated (b : Bool) :
    ((Mat.transformElements (.one (fun _ => .ok (some (.int false 5)))) false false .all .all
      ⟨.bool, ⟨[[.bool true b]], ⟨1, none⟩, ⟨1, none⟩⟩⟩).1.o.elem? 0 0 = some (.bool true true)) ∧
    (transformElements (.one (fun _ => .ok (some (.int false 5)))) false false .all .all
      ⟨[[.bool true b]], ⟨1, none⟩, ⟨1, none⟩⟩).1.elem? 0 0 = some (.int false 5) := by
  cases b <;> decide +kernel

/-! ### Sparse -/

theorem listLoop_congr {g g' : Val → Nat → Nat → Res Val} {l : Option (List Nat) × Option (List Nat)} :
    ∀ (ps : List (Nat × Nat)) (o : Obj Val), ps.Nodup →
      (∀ p ∈ ps, selected l p = true → ∀ v, o.elem? p.1 p.2 = some v → g v p.1 p.2 = g' v p.1 p.2) →
      listLoop g l ps o = listLoop g' l ps o
  | [], _, _, _ => rfl
  | p :: ps, o, hn, h => by
    rw [List.nodup_cons] at hn
    simp only [listLoop]
    by_cases hs : selected l p = true
    · rw [if_pos hs, if_pos hs]
      cases hv : o.elem? p.1 p.2 with
      | none => rfl
      | some v =>
        dsimp only
        rw [h p List.mem_cons_self hs v hv]
        cases g' v p.1 p.2 with
        | error e => rfl
        | ok w =>
          refine listLoop_congr ps _ hn.2 ?_
          intro q hq hsel x hx
          rw [elem_setElem, if_neg] at hx
          · exact h q (List.mem_cons_of_mem _ hq) hsel x hx
          · rintro ⟨h1, h2⟩
            apply hn.1
            have : q = p := Prod.ext h1 h2
            rwa [← this]
    · rw [if_neg hs, if_neg hs]
      exact listLoop_congr ps o hn.2 (fun q hq => h q (List.mem_cons_of_mem _ hq))

theorem unfold_transform {fn : Fn} {pz sk : Bool} {points features : Limit} {o : Obj Val}
    {l : Option (List Nat) × Option (List Nat)} (hl : limits o points features = .ok l) :
    transformElements fn pz sk points features o =
      listLoop (fn.validated pz sk) l (cells o.pts.len o.fts.len) o := by
  unfold transformElements
  rw [hl]

theorem canon_stored (str : Val → String) (v : Val) : canon ((valOps str).stored v) = canon v := by
  cases v with
  | flt np f => cases f <;> rfl
  | _ => rfl

theorem newObject_same {str : Val → String} {o : Obj Val} (h : o.WF) (hh : ¬ FirstPointIsHeader str o) :
    ∃ r, newObject str o.pts.len o.fts.len o.data = .ok r ∧ r.pts.len = o.pts.len ∧ r.fts.len = o.fts.len ∧
      ∀ i j, (r.elem? i j).map canon = (o.elem? i j).map canon := by
  unfold newObject
  by_cases hz : o.pts.len = 0 ∨ o.fts.len = 0
  · rw [if_pos hz]
    exact ⟨_, rfl, rfl, rfl, fun _ _ => rfl⟩
  · rw [if_neg hz]
    have hne : o.data ≠ [] := by
      intro hc
      apply hz
      left
      rw [← h.rows, hc]
      rfl
    obtain ⟨r, h1, h2⟩ := C53_data_automatic_no_header (valOps str) (rows := o.data) (n := o.fts.len) (by omega) hne
      h.cols (fun first second rest he hH => hh ⟨first, second, rest, he, hH⟩)
    refine ⟨r, h1, ?_, h2.fts, ?_⟩
    · rw [← h2.wf.rows, h2.data, List.length_map, h.rows]
    · intro i j
      have : r.elem? i j = (o.elem? i j).map (valOps str).stored := by
        have := elem_map o (valOps str).stored i j
        rw [← this]
        simp only [Obj.elem?, h2.data]
      rw [this]
      cases o.elem? i j with
      | none => rfl
      | some v => simp [canon_stored]

theorem referenceFrom_same {o r : Obj Val} (h : o.WF) (hp : r.pts.len = o.pts.len) (hf : r.fts.len = o.fts.len) :
    ∃ o', referenceFrom o r = (o', .ok ()) ∧ o'.pts.len = o.pts.len ∧ o'.fts.len = o.fts.len ∧
      o'.pts.getNames = o.pts.getNames ∧ o'.fts.getNames = o.fts.getNames ∧ o'.data = r.data := by
  obtain ⟨p, p1, p2, p3, p4, _⟩ := init_same h.pts
  obtain ⟨f, f1, f2, f3, f4, _⟩ := init_same h.fts
  refine ⟨⟨r.data, p, f⟩, ?_, p3, f3, p4, f4, rfl⟩
  unfold referenceFrom
  rw [hp, hf, p1]
  dsimp only
  rw [f1]

/-- **C85 (Sparse).**  A Sparse object succeeds exactly when a List with the same elements does and then ends with the
same elements, if zeros are preserved; or if the function never returns `None` and the result does not look like a table
under a row of names. -/
theorem C85_sparse (str : Val → String) {fn : Fn} {pz sk : Bool} {points features : Limit} {o : Obj Val} (h : o.WF)
    (hn : ZerosKept fn pz ∨ (∀ i j v, o.elem? i j = some v → ¬ NewValue fn pz sk v i j .none) ∧
      ¬ FirstPointIsHeader str (transformElements fn pz sk points features o).1) :
    ((sparseTransform str fn pz sk points features o).2 = .ok () ↔
      (transformElements fn pz sk points features o).2 = .ok ()) ∧
    ((transformElements fn pz sk points features o).2 = .ok () →
      SameShown (transformElements fn pz sk points features o).1 (sparseTransform str fn pz sk points features o).1) := by
  cases hl : limits o points features with
  | error e =>
    unfold sparseTransform transformElements
    rw [hl]
    exact ⟨Iff.rfl, fun h => by cases h⟩
  | ok l =>
    have hs : sparseTransform str fn pz sk points features o = if fn.preserve pz then
      listLoop (fn.validated pz sk) l ((cells o.pts.len o.fts.len).filter (stored o)) o
      else viaNewObject str o (listLoop (noneKeeps (fn.validated pz sk)) l (cells o.pts.len o.fts.len) o) := by
      unfold sparseTransform
      rw [hl]
    rw [hs]
    have nd := cells_nodup o.pts.len o.fts.len
    by_cases hz : fn.preserve pz = true
    · rw [if_pos hz, unfold_transform hl]
      have nd' : ((cells o.pts.len o.fts.len).filter (stored o)).Nodup := nd.filter _
      have hzero : ∀ p v, o.elem? p.1 p.2 = some v → stored o p = false →
          fn.validated pz sk v p.1 p.2 = .ok (.flt false (.fin 0)) := by
        intro p v hv hst
        simp only [stored, hv, Option.map_some, Option.getD_some, Bool.not_eq_false'] at hst
        unfold Fn.validated
        rw [if_pos ⟨hz, hst⟩]
      refine ⟨?_, ?_⟩
      · rw [listLoop_ok_iff _ _ _ _ nd, listLoop_ok_iff _ _ _ _ nd']
        constructor
        · intro hh p hp hsel
          by_cases hst : stored o p = true
          · exact hh p (List.mem_filter.mpr ⟨hp, hst⟩) hsel
          · obtain ⟨hi, hj⟩ := mem_cells.mp (show (p.1, p.2) ∈ _ from hp)
            obtain ⟨v, hv⟩ := elem_some h hi hj
            exact ⟨v, _, hv, hzero p v hv (by simpa using hst)⟩
        · intro hh p hp hsel
          exact hh p (List.mem_filter.mp hp).1 hsel
      · intro hok
        have hok' : (listLoop (fn.validated pz sk) l ((cells o.pts.len o.fts.len).filter (stored o)) o).2 = .ok () := by
          rw [listLoop_ok_iff _ _ _ _ nd']
          intro p hp hsel
          exact (listLoop_ok_iff _ _ _ _ nd).mp hok p (List.mem_filter.mp hp).1 hsel
        have f1 := listLoop_frame (fn.validated pz sk) l (cells o.pts.len o.fts.len) h
        have f2 := listLoop_frame (fn.validated pz sk) l ((cells o.pts.len o.fts.len).filter (stored o)) h
        refine ⟨by rw [f1.2.1, f2.2.1], by rw [f1.2.2, f2.2.2], by rw [f1.2.1, f2.2.1], by rw [f1.2.2, f2.2.2], ?_⟩
        intro i j
        cases hv : o.elem? i j with
        | none =>
          rw [listLoop_elem_none _ _ _ _ _ _ hv, listLoop_elem_none _ _ _ _ _ _ hv]
        | some v =>
          obtain ⟨w, a1, a2, a3⟩ := listLoop_elem _ l _ o nd hok i j v hv
          obtain ⟨w', b1, b2, b3⟩ := listLoop_elem _ l _ o nd' hok' i j v hv
          rw [a1, b1, Option.map_some, Option.map_some]
          congr 1
          have hm : (i, j) ∈ cells o.pts.len o.fts.len := mem_cells.mpr (elem_lt h hv)
          by_cases hsel : selected l (i, j) = true
          · by_cases hst : stored o (i, j) = true
            · have e1 := a2 ⟨hm, hsel⟩
              have e2 := b2 ⟨List.mem_filter.mpr ⟨hm, hst⟩, hsel⟩
              rw [e1] at e2
              cases e2
              rfl
            · have hst' : stored o (i, j) = false := by simpa using hst
              have e1 := a2 ⟨hm, hsel⟩
              have e3 := hzero (i, j) v hv hst'
              dsimp only at e3
              rw [e3] at e1
              cases e1
              have e2 := b3 (fun hc => hst (List.mem_filter.mp hc.1).2)
              subst e2
              simp only [stored, hv, Option.map_some, Option.getD_some, Bool.not_eq_false'] at hst'
              exact (pyEq_zero _).mp hst'
          · rw [a3 (fun hc => hsel hc.2), b3 (fun hc => hsel hc.2)]
    · rw [if_neg hz]
      have hcong : listLoop (noneKeeps (fn.validated pz sk)) l (cells o.pts.len o.fts.len) o =
          listLoop (fn.validated pz sk) l (cells o.pts.len o.fts.len) o := by
        refine listLoop_congr _ _ nd ?_
        intro p _ _ v hv
        unfold noneKeeps
        cases hg : fn.validated pz sk v p.1 p.2 with
        | error e => rfl
        | ok w =>
          simp only [Except.map]
          rw [if_neg]
          rintro rfl
          rcases hn with hn | hn
          · exact hz ((preserve_iff _ _).mpr hn)
          · exact hn.1 _ _ v hv (validated_new hg)
      rw [hcong]
      rw [← unfold_transform hl]
      unfold viaNewObject
      cases hr : (transformElements fn pz sk points features o).2 with
      | error e => exact ⟨by simp, fun h => by cases h⟩
      | ok u =>
        cases u
        dsimp only
        have hfr : (transformElements fn pz sk points features o).1.WF ∧
            (transformElements fn pz sk points features o).1.pts = o.pts ∧
            (transformElements fn pz sk points features o).1.fts = o.fts := by
          rw [unfold_transform hl]
          exact listLoop_frame _ l _ h
        obtain ⟨r', e1, e2⟩ := newObject_same (str := str) hfr.1 (hn.resolve_left (fun hc => hz ((preserve_iff _ _).mpr hc))).2
        rw [hfr.2.1, hfr.2.2] at e1
        rw [e1]
        obtain ⟨o'', e3, e4⟩ := referenceFrom_same h (by rw [e2.1, hfr.2.1]) (by rw [e2.2.1, hfr.2.2])
        simp only [replaceBy, e3]
        refine ⟨by simp, fun _ => ⟨by rw [hfr.2.1, e4.1], by rw [hfr.2.2, e4.2.1], by rw [hfr.2.1, e4.2.2.1], by rw [hfr.2.2, e4.2.2.2.1], ?_⟩⟩
        intro i j
        rw [← e2.2.2 i j]
        simp only [Obj.elem?, e4.2.2.2.2]

/-- **C85 violated (Sparse and `None`).**  A function that returns `None` makes the elements missing; those of a Sparse
object stay what they are. -/
theorem C85_sparse_none_violated (str : Val → String) (i : Int) (hi : i ≠ 0) :
    (transformElements (.one (fun _ => .ok (some .none))) false false .all .all
      ⟨[[.int true i]], ⟨1, none⟩, ⟨1, none⟩⟩).1.elem? 0 0 = some .none ∧
    (sparseTransform str (.one (fun _ => .ok (some .none))) false false .all .all
      ⟨[[.int true i]], ⟨1, none⟩, ⟨1, none⟩⟩).1.elem? 0 0 = some (.int true i) := by
  constructor <;>
    simp [transformElements, sparseTransform, limits, resolveLimit, Limit.idents, bind, Except.bind, pure, Except.pure,
      cells, listLoop, selected, inLimit, Obj.elem?, Fn.validated, Fn.preserve, Fn.keepsZero, Fn.call,
      zeroVal, pyEq, numEq, Val.num, Fn.oneArg, checkReturn, setElem, noneKeeps, viaNewObject, newObject, nimbleData, autoDetect, takePointNames, takeFeatureNames, finishData,
      sameLengths, replaceMissing, convertRows, Obj.make, AxisSt.init, chosenNames, replaceBy, referenceFrom,
      AxisSt.getNamesNoGen, valOps, Except.map]

/-- **C85 violated (a point becomes feature names).**  If the new values of the first point are strings and the second
point has a number, the Sparse object loses its first point: the new array is given to `nimble.data`, which takes the
first row for feature names.  Nothing tells the user.  If the points have names there is an exception, and the object is
left with two names and one point. -/
theorem C85_sparse_header_violated (str : Val → String) :
    let fn := Fn.dict [(.int false 1, .str "a"), (.int false 2, .str "b"), (.int false 0, .int false 5)]
    transformElements fn false false .all .all
      ⟨[[.int false 1, .int false 2], [.int false 3, .int false 4]], ⟨2, none⟩, ⟨2, none⟩⟩ =
      (⟨[[.str "a", .str "b"], [.int false 3, .int false 4]], ⟨2, none⟩, ⟨2, none⟩⟩, .ok ()) ∧
    sparseTransform str fn false false .all .all
      ⟨[[.int false 1, .int false 2], [.int false 3, .int false 4]], ⟨2, none⟩, ⟨2, none⟩⟩ =
      (⟨[[.int false 3, .int false 4]], ⟨1, none⟩, ⟨2, none⟩⟩, .ok ()) ∧
    sparseTransform str fn false false .all .all
      ⟨[[.int false 1, .int false 2], [.int false 3, .int false 4]],
        ⟨2, some ⟨[("p", 0), ("q", 1)], [some "p", some "q"]⟩⟩, ⟨2, none⟩⟩ =
      (⟨[[.int false 3, .int false 4]], ⟨1, some ⟨[("p", 0), ("q", 1)], [some "p", some "q"]⟩⟩, ⟨2, none⟩⟩,
        .error .InvalidArgumentValue) := by
  intro fn
  refine ⟨by decide +kernel, by rfl, by rfl⟩

/-- **C85 violated (the failed call).**  When the function fails, the elements before have been changed already. -/
theorem C85_atomic_violated (i : Int) (hi : i ≠ 0) :
    transformElements (.one (fun v => match v with | .int _ _ => .ok (some (.str "changed")) | _ => .error .ValueError))
      false false .all .all ⟨[[.int false i, .none]], ⟨1, none⟩, ⟨2, none⟩⟩ =
      (⟨[[.str "changed", .none]], ⟨1, none⟩, ⟨2, none⟩⟩, .error .ValueError) := by
  simp [transformElements, limits, resolveLimit, Limit.idents, bind, Except.bind, pure, Except.pure,
      cells, listLoop, selected, inLimit, Obj.elem?, Fn.validated, Fn.preserve, Fn.keepsZero, Fn.call,
      zeroVal, pyEq, numEq, Val.num, Fn.oneArg, checkReturn, setElem, List.range_succ]

/-- **C85 violated (False is taken for 0).**  Zeros are "preserved" as soon as the function maps 0 to something equal to
0; then `False` is replaced by 0.0 without asking the function, even if the function tells the two apart. -/
theorem C85_false_violated :
    (Fn.one (fun v => .ok (some (.bool false (boolean v))))).validated false false (.bool false false) 0 0 =
      .ok (.flt false (.fin 0)) ∧
    (Fn.one (fun v => .ok (some (.bool false (boolean v))))).call (.bool false false) 0 0 =
      .ok (some (.bool false true)) := by decide +kernel

/-- Two of four elements by name and index, with the zero kept. -/
example : ∃ r, transformElements (.one (fun v => match v with | .int _ i => .ok (some (.int false (3 * i))) | _ => .ok none))
      false false (.name "a") (.list [.int 0, .int (-1)])
      ⟨[[.int false 0, .int false 1, .int false 2], [.int false 4, .int false 5, .int false 6]],
        ⟨2, some ⟨[("a", 0), ("b", 1)], [some "a", some "b"]⟩⟩, ⟨3, none⟩⟩ = (r, .ok ()) ∧
    r.data = [[.flt false (.fin 0), .int false 1, .int false 6], [.int false 4, .int false 5, .int false 6]] := by
  refine ⟨_, rfl, ?_⟩
  decide +kernel

/-- The hypotheses of `C85_matrix`: the dictionary {1: 0.5} on integers. -/
example : (Fn.dict [(.int false 1, .flt false (.fin (1/2)))]).OfValue false := by
  intro a b i j h
  have key : ∀ v : Val, pyEq (.int false 1) v = true ↔ canon v = .num (.fin 1) := by
    intro v
    cases v with
    | none => simp [pyEq, canon, numEq, Val.num]
    | bool np b => cases b <;> simp [pyEq, canon, numEq, Val.num, Flt.eq]
    | int np i => simp [pyEq, canon, numEq, Val.num, Flt.eq, eq_comm]
    | flt np f => cases f <;> simp [pyEq, canon, numEq, Val.num, Flt.eq, eq_comm]
    | str s => simp [pyEq, canon, numEq, Val.num]
  simp only [Fn.call, dictValue, List.find?]
  have : pyEq (.int false 1) a = pyEq (.int false 1) b := by
    rw [Bool.eq_iff_iff, key, key, h]
  rw [this]
  cases pyEq (.int false 1) b
  · exact ⟨h, fun h => by cases h⟩
  · exact ⟨rfl, fun h => by cases h⟩

end Nimble.Elements
