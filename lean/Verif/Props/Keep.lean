import Verif.Model.Keep
import Verif.Props.Create
import Verif.Props.Names
import Verif.Lemmas.Permute
import Verif.Lemmas.Targets

/-!
# C83: keepPoints and keepFeatures of nimble.data
-/

namespace Nimble
open Obj
variable {V : Type}

/-! ## Specification -/

/-- The identifier stands for the `k`-th of `n` points named `names`: an index counts from the front, or from the back
if it is negative; a name is the name of that point. -/
def Stands (n : Nat) (names : List (Option String)) : Ident → Nat → Prop
  | .int i, k => k < n ∧ ((0 ≤ i ∧ i = k) ∨ (i < 0 ∧ i + n = k))
  | .str s, k => names[k]? = some (some s)
  | .flt _, _ => False

/-- What a keep argument means for `n` points, when `names` are the names given by the user or found in the data:
`idx` are the positions of the kept points in the order of the result, `out` their names. -/
inductive Chosen (n : Nat) : Option (List (Option String)) → Option (List Ident) → List Nat →
    Option (List (Option String)) → Prop
  /-- `'all'` -/
  | all (names) : Chosen n names none (List.range n) names
  /-- the names of all of the points are known -/
  | known (l) (ids : List Ident) (idx : List Nat) (out : List (Option String)) (hl : l.length = n)
      (ids_idx : List.Forall₂ (Stands n l) ids idx) (distinct : idx.Nodup)
      (len : out.length = idx.length)
      (out_idx : ∀ (k i : Nat), idx[k]? = some i → out[k]? = l[i]?) : Chosen n (some l) (some ids) idx (some out)
  /-- no names, or names for the kept points only -/
  | new (names) (ids : List Ident) (idx : List Nat) (hn : ∀ l, names = some l → l.length ≠ n ∧ l.length = idx.length)
      (ids_idx : List.Forall₂ (fun id k => id = .int (k : Nat)) ids idx) (distinct : idx.Nodup)
      (bound : ∀ i ∈ idx, i < n) : Chosen n names (some ids) idx names

/-- `r` consists of the points `ip` and features `jf` of `full`, in that order, under these names. -/
structure KeptFrom (full r : Obj V) (ip jf : List Nat) (pn fn : Option (List (Option String))) : Prop where
  wf : r.WF
  pts : r.pts.len = ip.length
  fts : r.fts.len = jf.length
  elem : ∀ (i j a b : Nat), ip[i]? = some a → jf[j]? = some b → r.elem? i j = full.elem? a b ∧ (full.elem? a b).isSome
  pnames : r.pts.getNames = pn.getD (List.replicate ip.length none)
  fnames : r.fts.getNames = fn.getD (List.replicate jf.length none)

/-- The argument for an object that takes no names from the user. -/
def NamesArg.ungiven : NamesArg → NamesArg
  | .given _ => .no
  | a => a

/-- The names given by the user, or else those of the axis. -/
def NamesArg.orOf (arg : NamesArg) (a : AxisSt) : Option (List (Option String)) :=
  match arg with
  | .given l => some l
  | _ => a.getNamesNoGen

/-! ## Lemmas -/

theorem keepIndices_ok_iff (a : AxisSt) : ∀ (ids : List Ident) (acc l : List Nat), acc.Nodup →
    (keepIndices a acc ids = .ok l ↔ ∃ idx, resolveIdents a ids = .ok idx ∧ l = acc ++ idx ∧ l.Nodup)
  | [], acc, l, hacc => by
    simp only [keepIndices, resolveIdents, Except.ok.injEq]
    constructor
    · rintro rfl
      exact ⟨[], rfl, by simp, hacc⟩
    · rintro ⟨_, rfl, rfl, _⟩
      simp
  | id :: ids, acc, l, hacc => by
    simp only [keepIndices, resolveIdents, bind, Except.bind, pure, Except.pure]
    cases hi : a.getIndex id with
    | error e => simp
    | ok i =>
      dsimp only
      by_cases hm : i.toNat ∈ acc
      · rw [if_pos hm]
        simp only [reduceCtorEq, false_iff]
        rintro ⟨idx, h1, rfl, h2⟩
        cases hr : resolveIdents a ids with
        | error e => rw [hr] at h1; cases h1
        | ok rest =>
          rw [hr] at h1
          cases h1
          rw [List.nodup_append] at h2
          exact h2.2.2 _ hm _ (by simp) rfl
      · rw [if_neg hm, keepIndices_ok_iff a ids (acc ++ [i.toNat]) l
          (by rw [List.nodup_append]; simp [hacc]; intro x hx he; exact hm (he ▸ hx))]
        constructor
        · rintro ⟨idx, h1, rfl, h2⟩
          refine ⟨i.toNat :: idx, by rw [h1], by simp, h2⟩
        · rintro ⟨idx, h1, rfl, h2⟩
          cases hr : resolveIdents a ids with
          | error e => rw [hr] at h1; cases h1
          | ok rest =>
            rw [hr] at h1
            cases h1
            exact ⟨rest, rfl, by simp, h2⟩

private theorem getIndex_at {a : AxisSt} (h : a.Ok) {i : Nat} {s : String} (hi : a.getNames[i]? = some (some s)) :
    a.getIndex (.str s) = .ok (i : Int) := (C04_getIndex_str h s i).2 ⟨i, rfl, hi⟩

theorem indicesOfNames_drop {a : AxisSt} (h : a.Ok) : ∀ (m k : Nat), k + m = a.len → none ∉ a.getNames →
    indicesOfNames a (a.getNames.drop k) = .ok (List.range' k m)
  | 0, k, hk, _ => by
    rw [List.drop_eq_nil_of_le (by rw [h.length_getNames]; omega)]
    rfl
  | m + 1, k, hk, hn => by
    have hlt : k < a.getNames.length := by rw [h.length_getNames]; omega
    rw [List.drop_eq_getElem_cons hlt]
    obtain ⟨s, hs⟩ : ∃ s, a.getNames[k] = some s := by
      cases hc : a.getNames[k] with
      | none => exact absurd (hc ▸ List.getElem_mem hlt) hn
      | some s => exact ⟨s, rfl⟩
    have hg := getIndex_at h (i := k) (s := s) (by rw [List.getElem?_eq_getElem hlt, hs])
    have ih := indicesOfNames_drop h m (k + 1) (by omega) hn
    rw [hs]
    simp only [indicesOfNames, indexOfName, hg, bind, Except.bind, ih, pure, Except.pure, List.range'_succ]
    rfl

theorem indicesOfNames_all {a : AxisSt} (h : a.Ok) (hn : none ∉ a.getNames) :
    indicesOfNames a a.getNames = .ok (List.range a.len) := by
  have := indicesOfNames_drop h a.len 0 (by omega) hn
  rwa [List.drop_zero, ← List.range_eq_range'] at this

theorem indicesOfNames_none (a : AxisSt) : ∀ {ns : List (Option String)}, none ∈ ns →
    ∃ e, indicesOfNames a ns = .error e
  | n :: ns, h => by
    simp only [indicesOfNames, bind, Except.bind]
    cases hi : indexOfName a n with
    | error e => exact ⟨e, rfl⟩
    | ok i =>
      dsimp only
      rcases List.mem_cons.mp h with rfl | h
      · cases hi
      · obtain ⟨e, he⟩ := indicesOfNames_none a h
        rw [he]
        exact ⟨e, rfl⟩

theorem keepOrder_eq {cleaned : List Nat} {n : Nat} (hp : cleaned.Perm (List.range n)) :
    keepOrder cleaned (List.range n) = cleaned := by
  have hz : (List.range n).zipIdx = (List.range n).map (fun i => (i, i)) := by
    apply List.ext_getElem?
    intro i
    by_cases hi : i < n <;> simp [List.getElem?_zipIdx, List.getElem?_range, hi]
  have hnd := perm_nodup hp
  unfold keepOrder
  rw [hz]
  set L := ((List.range n).map (fun i => (i, i))).mergeSort
    (fun x y => decide (cleaned.idxOf x.1 ≤ cleaned.idxOf y.1)) with hL
  have hperm : L.Perm ((List.range n).map (fun i => (i, i))) := List.mergeSort_perm _ _
  have hfst : ∀ x ∈ L, x.1 = x.2 := by
    intro x hx
    obtain ⟨i, _, rfl⟩ := List.mem_map.mp (hperm.mem_iff.mp hx)
    rfl
  have hsorted : L.Pairwise (fun x y => cleaned.idxOf x.1 ≤ cleaned.idxOf y.1) := by
    have := List.pairwise_mergeSort (le := fun (x y : Nat × Nat) => decide (cleaned.idxOf x.1 ≤ cleaned.idxOf y.1))
      (by intro a b c h1 h2; simp only [decide_eq_true_eq] at *; omega)
      (by intro a b; simp only [Bool.or_eq_true, decide_eq_true_eq]; omega)
      ((List.range n).map (fun i => (i, i)))
    exact this.imp (by intro a b h; simpa using h)
  have h1 : (L.map Prod.snd).Perm cleaned := by
    refine (hperm.map Prod.snd).trans ?_
    rw [List.map_map]
    have : (Prod.snd ∘ fun i : Nat => (i, i)) = id := rfl
    rw [this, List.map_id]
    exact hp.symm
  have h2 : (L.map Prod.snd).Pairwise (fun x y => cleaned.idxOf x ≤ cleaned.idxOf y) := by
    rw [List.pairwise_map]
    refine hsorted.imp_of_mem ?_
    intro x y hx hy h
    rw [hfst x hx, hfst y hy] at h
    exact h
  have h3 : cleaned.Pairwise (fun x y => cleaned.idxOf x ≤ cleaned.idxOf y) := by
    rw [List.pairwise_iff_getElem]
    intro i j hi hj hij
    rw [hnd.idxOf_getElem, hnd.idxOf_getElem]
    omega
  refine h1.eq_of_pairwise ?_ h2 h3
  intro a b ha hb hab hba
  exact (List.idxOf_inj (h1.mem_iff.mp ha)).mp (by omega)


theorem keepSort_ok {o r : Obj V} (h : o.WF) {ax : Ax} {cleaned : List Nat}
    (hp : cleaned.Perm (List.range (o.axis ax).len)) (hr : o.keepSort ax cleaned = .ok r) :
    SelectedSpec o r ax cleaned := by
  unfold Obj.keepSort at hr
  by_cases h1 : (o.axis ax).len ≤ 1
  · rw [if_pos h1] at hr
    cases hr
    obtain ⟨r', hr', hs⟩ := applyOrder_spec h ax hp
    unfold applyOrder at hr'
    rw [if_pos h1] at hr'
    cases hr'
    exact hs
  · rw [if_neg h1] at hr
    by_cases hn : none ∈ (o.axis ax).getNames
    · obtain ⟨e, he⟩ := indicesOfNames_none (o.axis ax) hn
      simp only [he, bind, Except.bind] at hr
      cases hr
    · rw [indicesOfNames_all (h.axisOk ax) hn] at hr
      simp only [bind, Except.bind, keepOrder_eq hp] at hr
      obtain ⟨r', hr', hs⟩ := permute_ints h ax hp
      rw [hr'] at hr
      cases hr
      exact hs

theorem keepSort_succeeds {o : Obj V} (h : o.WF) {ax : Ax} {cleaned : List Nat}
    (hp : cleaned.Perm (List.range (o.axis ax).len)) (hn : (o.axis ax).len ≤ 1 ∨ none ∉ (o.axis ax).getNames) :
    ∃ r, o.keepSort ax cleaned = .ok r := by
  unfold Obj.keepSort
  by_cases h1 : (o.axis ax).len ≤ 1
  · rw [if_pos h1]
    exact ⟨o, rfl⟩
  · rw [if_neg h1, indicesOfNames_all (h.axisOk ax) (by tauto)]
    simp only [bind, Except.bind, keepOrder_eq hp]
    obtain ⟨r', hr', hs⟩ := permute_ints h ax hp
    exact ⟨r', hr'⟩

theorem keepSort_refused {o : Obj V} {ax : Ax} {cleaned : List Nat}
    (hn : ¬ ((o.axis ax).len ≤ 1 ∨ none ∉ (o.axis ax).getNames)) : ∃ e, o.keepSort ax cleaned = .error e := by
  unfold Obj.keepSort
  rw [not_or, not_not] at hn
  obtain ⟨e, he⟩ := indicesOfNames_none (o.axis ax) hn.2
  rw [if_neg hn.1, he]
  exact ⟨e, rfl⟩

theorem copy_ints {o : Obj V} (h : o.WF) (ax : Ax) {idx : List Nat} (hd : idx.Nodup)
    (hb : ∀ i ∈ idx, i < (o.axis ax).len) (samp : List Nat → Nat → List Nat) :
    ∃ r, (o.copy samp ax { target := some (.list (idx.map (fun (k : Nat) => .int k))) }).2 = .ok r ∧
      SelectedSpec o r ax idx := by
  obtain ⟨r, hr, hs⟩ := selected_spec h ax hd hb
  refine ⟨r, ?_, hs⟩
  have h1 : resolveDistinct (o.axis ax) (idx.map (fun (k : Nat) => Ident.int k)) = .ok idx :=
    (resolveDistinct_ok_iff _ _ _).2 ⟨ints_resolve hb, hd⟩
  simp only [Obj.copy, Obj.targets, validateStructural, Obj.baseTargets, numberBad, h1, bind, Except.bind, pure,
    Except.pure]
  simpa using hr

theorem keepSelect_ok {o r : Obj V} (h : o.WF) {ax : Ax} {cleaned : List Nat} (hd : cleaned.Nodup)
    (hb : ∀ i ∈ cleaned, i < (o.axis ax).len) (hr : o.keepSelect ax cleaned = .ok r) :
    SelectedSpec o r ax cleaned := by
  unfold Obj.keepSelect at hr
  by_cases hl : cleaned.length = (o.axis ax).len
  · rw [if_pos hl] at hr
    exact keepSort_ok h (perm_range_of_nodup hd hb hl) hr
  · rw [if_neg hl] at hr
    obtain ⟨r', hr', hs⟩ := copy_ints h ax hd hb (fun l _ => l)
    rw [hr'] at hr
    cases hr
    exact hs

theorem keepSelect_succeeds {o : Obj V} (h : o.WF) {ax : Ax} {cleaned : List Nat} (hd : cleaned.Nodup)
    (hb : ∀ i ∈ cleaned, i < (o.axis ax).len)
    (hn : cleaned.length = (o.axis ax).len → (o.axis ax).len ≤ 1 ∨ none ∉ (o.axis ax).getNames) :
    ∃ r, o.keepSelect ax cleaned = .ok r := by
  unfold Obj.keepSelect
  by_cases hl : cleaned.length = (o.axis ax).len
  · rw [if_pos hl]
    exact keepSort_succeeds h (perm_range_of_nodup hd hb hl) (hn hl)
  · rw [if_neg hl]
    obtain ⟨r', hr', hs⟩ := copy_ints h ax hd hb (fun l _ => l)
    exact ⟨r', hr'⟩

/-- `setNames` of a list or of no names, on an object. -/
theorem nameAxis_ok {o r : Obj V} (h : o.WF) {ax : Ax} {names : Option (List (Option String))}
    (hr : o.nameAxis ax names = .ok r) :
    r.WF ∧ r.data = o.data ∧ (∀ ax', (r.axis ax').len = (o.axis ax').len) ∧
      (r.axis ax).getNames = names.getD (List.replicate (o.axis ax).len none) ∧
      (r.axis ax.off) = (o.axis ax.off) ∧
      ∀ l, names = some l → l.length = (o.axis ax).len ∧ l.reduceOption.Nodup := by
  unfold Obj.nameAxis at hr
  simp only [bind, Except.bind, pure, Except.pure] at hr
  cases ha : (o.axis ax).setNames (asAssign names) with
  | error e => rw [ha] at hr; cases hr
  | ok a =>
    rw [ha] at hr
    dsimp only at hr
    cases hr
    have hax : a.Ok ∧ a.len = (o.axis ax).len ∧ a.getNames = names.getD (List.replicate (o.axis ax).len none) ∧
        ∀ l, names = some l → l.length = (o.axis ax).len ∧ l.reduceOption.Nodup := by
      cases names with
      | none =>
        simp only [asAssign, AxisSt.setNames] at ha
        cases ha
        refine ⟨?_, rfl, rfl, by simp⟩
        intro t ht
        cases ht
      | some l =>
        obtain ⟨g1, g2, g3, g4⟩ := setNames_list_ok ha
        refine ⟨g4, by rw [g3], by rw [g3]; rfl, ?_⟩
        intro l' hl'
        cases hl'
        exact ⟨g1, g2⟩
    obtain ⟨k1, k2, k3, k4⟩ := hax
    cases ax with
    | point =>
      refine ⟨⟨h.rows.trans k2.symm, h.cols, k1, h.fts⟩, rfl, ?_, k3, rfl, k4⟩
      intro ax'; cases ax' with
      | point => exact k2
      | feature => rfl
    | feature =>
      refine ⟨⟨h.rows, fun r hr => (h.cols r hr).trans k2.symm, h.pts, k1⟩, rfl, ?_, k3, rfl, k4⟩
      intro ax'; cases ax' with
      | point => rfl
      | feature => exact k2

theorem nameAxis_succeeds (o : Obj V) (ax : Ax) {names : Option (List (Option String))}
    (hn : ∀ l, names = some l → l.length = (o.axis ax).len ∧ l.reduceOption.Nodup) :
    ∃ r, o.nameAxis ax names = .ok r := by
  unfold Obj.nameAxis
  cases names with
  | none => exact ⟨_, rfl⟩
  | some l =>
    simp only [asAssign, setNames_list_eq, if_pos (hn l rfl), bind, Except.bind]
    exact ⟨_, rfl⟩


theorem stands_iff {a : AxisSt} (h : a.Ok) (id : Ident) (k : Nat) :
    a.getIndex id = .ok (k : Int) ↔ Stands a.len a.getNames id k := by
  cases id with
  | int i =>
    rw [C04_getIndex_int]
    simp only [Stands]
    by_cases hi : i < 0
    · rw [if_pos hi]; omega
    · rw [if_neg hi]; omega
  | str s =>
    rw [C04_getIndex_str h]
    simp only [Stands]
    constructor
    · rintro ⟨i, h1, h2⟩
      have : k = i := by omega
      rw [this]; exact h2
    · intro h1
      exact ⟨k, rfl, h1⟩
  | flt q =>
    simp only [Stands, iff_false, AxisSt.getIndex]
    split <;> simp

theorem forall₂_of_map_eq {A B C : Type} {f : A → C} {g : B → C} : ∀ {l : List A} {m : List B},
    l.map f = m.map g ↔ List.Forall₂ (fun a b => f a = g b) l m
  | [], [] => by simp
  | [], _ :: _ => by simp
  | _ :: _, [] => by simp
  | a :: l, b :: m => by simp [forall₂_of_map_eq (l := l) (m := m)]

theorem resolve_stands {a : AxisSt} (h : a.Ok) {ids : List Ident} {idx : List Nat} :
    resolveIdents a ids = .ok idx ↔ List.Forall₂ (Stands a.len a.getNames) ids idx := by
  rw [resolveIdents_ok_iff a ids idx h, forall₂_of_map_eq]
  constructor
  · intro hf; exact hf.imp (fun id k hk => (stands_iff h id k).1 hk)
  · intro hf; exact hf.imp (fun id k hk => (stands_iff h id k).2 hk)

theorem indexValuesOnly_ok : ∀ {ids : List Ident}, indexValuesOnly ids = .ok () →
    ∀ id ∈ ids, (∃ i : Int, id = .int i ∧ 0 ≤ i) ∨ ∃ q, id = .flt q
  | [], _ => by simp
  | .str _ :: _, h => by cases h
  | .int i :: xs, h => by
    simp only [indexValuesOnly] at h
    by_cases hi : i < 0
    · rw [if_pos hi] at h; cases h
    · rw [if_neg hi] at h
      intro id hid
      rcases List.mem_cons.mp hid with rfl | hid
      · exact .inl ⟨i, rfl, by omega⟩
      · exact indexValuesOnly_ok h id hid
  | .flt q :: xs, h => by
    simp only [indexValuesOnly] at h
    by_cases hi : q < 0
    · rw [if_pos hi] at h; cases h
    · rw [if_neg hi] at h
      intro id hid
      rcases List.mem_cons.mp hid with rfl | hid
      · exact .inr ⟨q, rfl⟩
      · exact indexValuesOnly_ok h id hid

theorem indexValuesOnly_ints : ∀ (idx : List Nat), indexValuesOnly (idx.map (fun (k : Nat) => .int k)) = .ok ()
  | [] => rfl
  | k :: idx => by
    simp only [List.map_cons, indexValuesOnly]
    rw [if_neg (by omega)]
    exact indexValuesOnly_ints idx

theorem checkDuplicates_ok : ∀ {n : Nat} {l : List (Option String)} {ids : List Ident} {idx : List Nat},
    (∀ (s : String) (i j : Nat), l[i]? = some (some s) → l[j]? = some (some s) → i = j) →
    List.Forall₂ (Stands n l) ids idx → idx.Nodup → checkDuplicates ids = .ok ()
  | _, _, [], _, _, _, _ => rfl
  | n, l, id :: ids, _, hl, .cons (b := k) (l₂ := idx) h1 h2, hd => by
    rw [List.nodup_cons] at hd
    simp only [checkDuplicates]
    have : ids.any (identEq id) = false := by
      rw [Bool.eq_false_iff]
      intro hany
      obtain ⟨id', hm, he⟩ := List.any_eq_true.mp hany
      have : ∃ k' ∈ idx, Stands n l id' k' := by
        clear hd hany
        induction h2 with
        | nil => simp at hm
        | cons h _ ih =>
          rcases List.mem_cons.mp hm with rfl | hm
          · exact ⟨_, by simp, h⟩
          · obtain ⟨k', hk', h'⟩ := ih hm
            exact ⟨k', by simp [hk'], h'⟩
      obtain ⟨k', hk', hs⟩ := this
      have : k = k' := by
        cases id <;> cases id' <;> simp only [identEq, beq_iff_eq, Bool.false_eq_true] at he <;>
          simp only [Stands] at h1 hs
        · subst he; omega
        · subst he; exact hl _ _ _ h1 hs
      exact hd.1 (this ▸ hk')
    rw [this]
    exact checkDuplicates_ok hl h2 hd.2

/-- One axis of `o` has been limited. -/
structure AxisKept (o r : Obj V) (ax : Ax) (idx : List Nat) (out : Option (List (Option String))) : Prop where
  wf : r.WF
  data : r.data = selData ax o.data idx
  len : (r.axis ax).len = idx.length
  names : (r.axis ax).getNames = out.getD (List.replicate idx.length none)
  offLen : (r.axis ax.off).len = (o.axis ax.off).len
  offNames : (r.axis ax.off).getNames = (o.axis ax.off).getNames
  bound : ∀ i ∈ idx, i < (o.axis ax).len

theorem keepAxis_ok {o r : Obj V} (h : o.WF) {ax : Ax} {ex : Bool} {names : Option (List (Option String))}
    {keep : Option (List Ident)}
    (hnow : keep = none → (o.axis ax).getNames = names.getD (List.replicate (o.axis ax).len none))
    (hr : o.keepAxis ax ex names keep = .ok r) :
    ∃ idx out, Chosen (o.axis ax).len names keep idx out ∧ AxisKept o r ax idx out := by
  cases keep with
  | none =>
    simp only [Obj.keepAxis] at hr
    cases hr
    refine ⟨_, _, .all names, h, (selData_range h ax).symm, by simp, ?_, rfl, rfl, by simp⟩
    rw [hnow rfl, List.length_range]
  | some ids =>
    simp only [Obj.keepAxis] at hr
    by_cases h1 : ex = false ∧ ids.length = (o.axis ax).len
    · rw [if_pos h1] at hr; cases hr
    · rw [if_neg h1] at hr
      by_cases h2 : allNamed (o.axis ax).len names = true
      · rw [if_pos h2] at hr
        obtain ⟨l, rfl⟩ : ∃ l, names = some l := by
          cases names with
          | none => cases h2
          | some l => exact ⟨l, rfl⟩
        simp only [bind, Except.bind] at hr
        cases hn : o.nameAxis ax (some l) with
        | error e => rw [hn] at hr; cases hr
        | ok o1 =>
          rw [hn] at hr
          dsimp only at hr
          obtain ⟨w1, w2, w3, w4, w5, w6⟩ := nameAxis_ok h hn
          cases hk : keepIndices (o1.axis ax) [] ids with
          | error e => rw [hk] at hr; cases hr
          | ok cleaned =>
            rw [hk] at hr
            dsimp only at hr
            obtain ⟨idx, g1, g2, g3⟩ := (keepIndices_ok_iff (o1.axis ax) ids [] cleaned (by simp)).1 hk
            rw [List.nil_append] at g2
            subst g2
            have hb := resolveIdents_bound (w1.axisOk ax) g1
            have hs := keepSelect_ok w1 g3 hb hr
            have hst := (resolve_stands (w1.axisOk ax)).1 g1
            simp only [w3, w4, Option.getD_some] at hst
            have hll := (w6 l rfl).1
            rw [w3] at hb
            refine ⟨cleaned, some (pick l cleaned), .known l ids cleaned _ hll hst g3
              (length_pick (by rw [hll]; exact hb)) ?_, hs.wf, by rw [hs.data, w2], hs.len, ?_, ?_, ?_, hb⟩
            · intro k i hki
              rw [getElem?_pick (by rw [hll]; exact hb), hki]
              rfl
            · rw [hs.names, w4]; rfl
            · rw [hs.offLen, w3]
            · rw [hs.offNames, w5]
      · rw [if_neg h2] at hr
        simp only [bind, Except.bind] at hr
        cases hv : indexValuesOnly ids with
        | error e => rw [hv] at hr; cases hr
        | ok u =>
          rw [hv] at hr
          dsimp only at hr
          cases hk : keepIndices (o.axis ax) [] ids with
          | error e => rw [hk] at hr; cases hr
          | ok cleaned =>
            rw [hk] at hr
            dsimp only at hr
            obtain ⟨idx, g1, g2, g3⟩ := (keepIndices_ok_iff (o.axis ax) ids [] cleaned (by simp)).1 hk
            rw [List.nil_append] at g2
            subst g2
            have hb := resolveIdents_bound (h.axisOk ax) g1
            cases hsel : o.keepSelect ax cleaned with
            | error e => rw [hsel] at hr; cases hr
            | ok o1 =>
              rw [hsel] at hr
              dsimp only at hr
              have hs := keepSelect_ok h g3 hb hsel
              obtain ⟨w1, w2, w3, w4, w5, w6⟩ := nameAxis_ok hs.wf hr
              have hst := (resolve_stands (h.axisOk ax)).1 g1
              have hint : List.Forall₂ (fun id k => id = .int (k : Nat)) ids cleaned := by
                have hi := indexValuesOnly_ok hv
                clear hk g1 hsel hv hb hs h1 g3 hnow
                induction hst with
                | nil => exact .nil
                | @cons id k ids idx hx _ ih =>
                  refine .cons ?_ (ih (fun id hid => hi id (by simp [hid])))
                  rcases hi id (by simp) with ⟨i, rfl, h0⟩ | ⟨q, rfl⟩
                  · simp only [Stands] at hx
                    congr 1
                    omega
                  · exact hx.elim
              refine ⟨cleaned, names, .new names ids cleaned ?_ hint g3 hb, w1, by rw [w2, hs.data],
                by rw [w3, hs.len], by rw [w4, hs.len], by rw [w3, hs.offLen], by rw [w5, hs.offNames], hb⟩
              rintro l rfl
              refine ⟨by simpa [allNamed] using h2, ?_⟩
              rw [(w6 l rfl).1, hs.len]

theorem keepAxis_succeeds {o : Obj V} (h : o.WF) {ax : Ax} {ex : Bool} {names : Option (List (Option String))}
    {keep : Option (List Ident)} {idx : List Nat} {out : Option (List (Option String))}
    (hc : Chosen (o.axis ax).len names keep idx out)
    (hdis : ∀ l, names = some l → l.reduceOption.Nodup)
    (hall : ∀ ids, keep = some ids → ids.length = (o.axis ax).len →
      ex = true ∧ ∃ l, names = some l ∧ l.length = (o.axis ax).len ∧ ((o.axis ax).len ≤ 1 ∨ none ∉ l)) :
    ∃ r, o.keepAxis ax ex names keep = .ok r := by
  cases hc with
  | all => exact ⟨o, rfl⟩
  | known l ids idx out hl hst hd hlen hout =>
    simp only [Obj.keepAxis]
    rw [if_neg (by rintro ⟨h1, h2⟩; rw [(hall ids rfl h2).1] at h1; cases h1), if_pos (by simp [allNamed, hl])]
    obtain ⟨o1, hn⟩ := nameAxis_succeeds o ax (names := some l)
      (by intro l' hl'; cases hl'; exact ⟨hl, hdis l rfl⟩)
    obtain ⟨w1, w2, w3, w4, w5, w6⟩ := nameAxis_ok h hn
    have hres : resolveIdents (o1.axis ax) ids = .ok idx := by
      rw [resolve_stands (w1.axisOk ax), w3, w4]
      exact hst
    have hk := (keepIndices_ok_iff (o1.axis ax) ids [] idx (by simp)).2 ⟨idx, hres, rfl, hd⟩
    simp only [bind, Except.bind, hn, hk]
    refine keepSelect_succeeds w1 hd (resolveIdents_bound (w1.axisOk ax) hres) ?_
    intro hfull
    rw [w3] at hfull ⊢
    obtain ⟨_, l', hl', _, hor⟩ := hall ids rfl (by rw [hst.length_eq, hfull])
    cases hl'
    rw [w4]
    exact hor
  | new names ids idx hn hint hd hb =>
    simp only [Obj.keepAxis]
    rw [if_neg (by rintro ⟨h1, h2⟩; rw [(hall ids rfl h2).1] at h1; cases h1),
      if_neg (by
        cases names with
        | none => simp [allNamed]
        | some l => simpa [allNamed] using (hn l rfl).1)]
    have hids : ids = idx.map (fun (k : Nat) => .int k) := by
      clear hd hb hn hall hdis
      induction hint with
      | nil => rfl
      | cons hx _ ih => rw [hx, List.map_cons, ← ih]
    have hres : resolveIdents (o.axis ax) ids = .ok idx := by rw [hids]; exact ints_resolve hb
    have hk := (keepIndices_ok_iff (o.axis ax) ids [] idx (by simp)).2 ⟨idx, hres, rfl, hd⟩
    have hv : indexValuesOnly ids = .ok () := by rw [hids]; exact indexValuesOnly_ints idx
    have hshort : idx.length ≠ (o.axis ax).len := by
      intro hfull
      obtain ⟨_, l', hl', h5, _⟩ := hall ids rfl (by rw [hids]; simpa using hfull)
      exact (hn l' hl').1 h5
    obtain ⟨o1, hs⟩ := keepSelect_succeeds h hd hb (fun he => absurd he hshort)
    simp only [bind, Except.bind, hv, hk, hs]
    refine nameAxis_succeeds o1 ax ?_
    intro l hl
    rw [(keepSelect_ok h hd hb hs).len]
    exact ⟨(hn l hl).2, hdis l hl⟩


theorem init_inv {n : Nat} {l : Option (List (Option String))} {a : AxisSt} (h : AxisSt.init n l = .ok a) :
    goodNames n l ∧ a.len = n ∧ a.Ok ∧ a.getNames = l.getD (List.replicate n none) ∧ a.getNamesNoGen = l := by
  have hg : goodNames n l := by
    cases l with
    | none => trivial
    | some l =>
      simp only [AxisSt.init] at h
      by_cases hl : l.length ≠ n
      · rw [if_pos hl] at h; cases h
      · rw [if_neg hl] at h
        obtain ⟨g1, g2, _, _⟩ := setNames_list_ok h
        exact ⟨g1, g2⟩
  obtain ⟨a', h1, h2, h3, h4⟩ := init_good hg
  rw [h1] at h
  cases h
  refine ⟨hg, h2, h3, h4, ?_⟩
  cases l with
  | none => cases h1; rfl
  | some l =>
    rw [init_some_ok hg.1 hg.2] at h1
    cases h1
    rfl

theorem make_inv {data : List (List V)} {nP nF : Nat} {pn fn : Option (List (Option String))} {o : Obj V}
    (h : Obj.make data nP nF pn fn = .ok o) (hr : data.length = nP) (hc : ∀ r ∈ data, r.length = nF) :
    o.WF ∧ o.data = data ∧ o.pts.len = nP ∧ o.fts.len = nF ∧ goodNames nP pn ∧ goodNames nF fn ∧
      o.pts.getNames = pn.getD (List.replicate nP none) ∧ o.fts.getNames = fn.getD (List.replicate nF none) ∧
      o.pts.getNamesNoGen = pn ∧ o.fts.getNamesNoGen = fn := by
  unfold Obj.make at h
  simp only [bind, Except.bind, pure, Except.pure] at h
  cases hp : AxisSt.init nP pn with
  | error e => rw [hp] at h; cases h
  | ok a =>
    rw [hp] at h
    dsimp only at h
    cases hf : AxisSt.init nF fn with
    | error e => rw [hf] at h; cases h
    | ok b =>
      rw [hf] at h
      dsimp only at h
      cases h
      obtain ⟨p1, p2, p3, p4, p5⟩ := init_inv hp
      obtain ⟨f1, f2, f3, f4, f5⟩ := init_inv hf
      exact ⟨⟨hr.trans p2.symm, fun r h => (hc r h).trans f2.symm, p3, f3⟩, rfl, p2, f2, p1, f1, p4, f4, p5, f5⟩

theorem make_good {data : List (List V)} {nP nF : Nat} {pn fn : Option (List (Option String))}
    (hp : goodNames nP pn) (hf : goodNames nF fn) : ∃ o, Obj.make data nP nF pn fn = .ok o := by
  obtain ⟨a, ha, _⟩ := init_good hp
  obtain ⟨b, hb, _⟩ := init_good hf
  refine ⟨⟨data, a, b⟩, ?_⟩
  unfold Obj.make
  simp only [ha, hb, bind, Except.bind, pure, Except.pure]

/-- The rows and names taken out of the source (`extractNames`, then the missing values). -/
private def rawExtract (C : CellOps V) (d : Bool × Bool) (rows : List (List V)) :
    Res (List (List V) × Option (List (Option String)) × Option (List (Option String))) :=
  if rows.isEmpty && (d.1 || d.2) then .error .IndexError
  else do
    let p ← takePointNames C d.1 d.2 rows
    let f := takeFeatureNames C d.2 p.2
    return (replaceMissing C f.2, p.1, f.1)

private theorem autoDetect_ungiven (C : CellOps V) (pn fn : NamesArg) (rows : List (List V)) :
    autoDetect C pn.ungiven fn.ungiven rows = autoDetect C pn fn rows := by
  unfold autoDetect
  rcases rows with _ | ⟨_ | ⟨f, fs⟩, _ | ⟨_ | ⟨s, ss⟩, rest⟩⟩ <;> cases pn <;> cases fn <;> rfl

private theorem rawParts_eq (C : CellOps V) (pn fn : NamesArg) (rows : List (List V)) :
    rawParts C pn fn rows = (rawExtract C (autoDetect C pn fn rows) rows).map
      (fun t => (t.1, chosenNames pn t.2.1, chosenNames fn t.2.2)) := by
  unfold rawParts rawExtract
  dsimp only
  split
  · rfl
  · cases takePointNames C (autoDetect C pn fn rows).1 (autoDetect C pn fn rows).2 rows <;> rfl

private theorem nimbleData_eq (C : CellOps V) (pn fn : NamesArg) (rows : List (List V)) :
    nimbleData C pn fn rows = (rawExtract C (autoDetect C pn fn rows) rows).bind
      (fun t => finishData C t.1 (chosenNames pn t.2.1) (chosenNames fn t.2.2)) := by
  unfold nimbleData rawExtract
  dsimp only
  split
  · rfl
  · cases takePointNames C (autoDetect C pn fn rows).1 (autoDetect C pn fn rows).2 rows <;> rfl

private theorem chosen_len {pn : NamesArg} {t : Option (List (Option String))}
    (h : ((chosenNames pn.ungiven t).getD []).length ≠ 0) : chosenNames pn t = chosenNames pn.ungiven t := by
  cases pn <;> simp_all [NamesArg.ungiven, chosenNames]

private theorem length_emptyRows (C : CellOps V) (p f : Nat) : (emptyRows C p f).length = p ∧
    ∀ r ∈ emptyRows C p f, r.length = f := by
  constructor
  · simp [emptyRows]
  · intro r hr
    rw [(List.mem_replicate.mp hr).2, List.length_replicate]

/-- All of the data is the same whether or not the user gives names and keep lists. -/
private theorem full_shape {C : CellOps V} {pn fn : NamesArg} {rows : List (List V)} {full : Obj V}
    (hfull : nimbleData C pn.ungiven fn.ungiven rows = .ok full) (hP : full.pts.len ≠ 0) (hF : full.fts.len ≠ 0) :
    ∃ raw, rawParts C pn fn rows = .ok (raw, pn.orOf full.pts, fn.orOf full.fts) ∧ full.WF ∧
      ∀ u v, madeFrom C raw (pn.orOf full.pts) (fn.orOf full.fts) u v =
        Obj.make full.data full.pts.len full.fts.len u v := by
  rw [nimbleData_eq, autoDetect_ungiven] at hfull
  cases he : rawExtract C (autoDetect C pn fn rows) rows with
  | error e => rw [he] at hfull; cases hfull
  | ok t =>
    rw [he] at hfull
    obtain ⟨raw, tp, tf⟩ := t
    simp only [Except.bind, finishData] at hfull
    by_cases hsl : sameLengths raw = true
    swap
    · rw [if_neg hsl] at hfull; cases hfull
    rw [if_pos hsl] at hfull
    have hsame := (sameLengths_iff raw).1 hsl
    have key : ∃ data nP nF, (data.length = nP ∧ ∀ r ∈ data, r.length = nF) ∧
        Obj.make data nP nF (chosenNames pn.ungiven tp) (chosenNames fn.ungiven tf) = .ok full ∧
        (nP ≠ 0 → nF ≠ 0 → ∀ u v, convertShaped C raw ((chosenNames pn tp).getD []).length
          ((chosenNames fn tf).getD []).length u v = Obj.make data nP nF u v) := by
      match raw, hfull, hsame with
      | [], hfull, _ =>
        refine ⟨_, _, _, length_emptyRows C _ _, hfull, ?_⟩
        intro h1 h2 u v
        rw [chosen_len h1, chosen_len h2]
        rfl
      | [] :: rest, hfull, _ =>
        refine ⟨_, _, _, length_emptyRows C _ _, hfull, ?_⟩
        intro _ h2 u v
        rw [chosen_len h2]
        rfl
      | (a :: r) :: rest, hfull, hsame =>
        refine ⟨(a :: r) :: rest, rest.length + 1, r.length + 1, ⟨rfl, ?_⟩, hfull, fun _ _ _ _ => rfl⟩
        intro r' hr'
        have := hsame r' hr' (a :: r) (by simp)
        simpa using this
    obtain ⟨data, nP, nF, ⟨hr, hc⟩, hmk, hconv⟩ := key
    obtain ⟨w, m1, m2, m3, m4, m5, m6, m7, m8, m9⟩ := make_inv hmk hr hc
    have e1 : chosenNames pn tp = pn.orOf full.pts := by
      cases pn <;> simp_all [NamesArg.orOf, NamesArg.ungiven, chosenNames]
    have e2 : chosenNames fn tf = fn.orOf full.fts := by
      cases fn <;> simp_all [NamesArg.orOf, NamesArg.ungiven, chosenNames]
    refine ⟨raw, ?_, w, ?_⟩
    · rw [rawParts_eq, he, ← e1, ← e2]; rfl
    · intro u v
      unfold madeFrom
      rw [if_pos hsl, ← e1, ← e2, hconv (by rw [← m2]; exact hP) (by rw [← m3]; exact hF), m1, m2, m3]

private theorem goodNames_now {n : Nat} {names : Option (List (Option String))} {keep : Option (List Ident)}
    (h : keep = none → goodNames n names) : goodNames n (namesNow names keep) := by
  cases keep with
  | none => exact h rfl
  | some _ => trivial

theorem elem_selected_point {o r : Obj V} (h : o.WF) {idx : List Nat} (hb : ∀ i ∈ idx, i < o.pts.len)
    (hd : r.data = selData .point o.data idx) {i j : Nat} :
    r.elem? i j = (idx[i]?).bind (fun a => o.elem? a j) := by
  unfold Obj.elem?
  rw [hd]
  dsimp only [selData]
  rw [getElem?_pick (by rw [h.rows]; exact hb)]
  cases idx[i]? <;> rfl

theorem elem_selected_feature {o r : Obj V} (h : o.WF) {idx : List Nat} (hb : ∀ i ∈ idx, i < o.fts.len)
    (hd : r.data = selData .feature o.data idx) {i j : Nat} :
    r.elem? i j = (idx[j]?).bind (fun b => o.elem? i b) := by
  unfold Obj.elem?
  rw [hd]
  dsimp only [selData]
  rw [List.getElem?_map]
  cases hrow : o.data[i]? with
  | none => cases idx[j]? <;> simp
  | some row =>
    simp only [Option.map_some, Option.bind_some]
    have : row.length = o.fts.len := h.cols row (List.mem_of_getElem? hrow)
    rw [getElem?_pick (by rw [this]; exact hb)]

private theorem chosen_bound {n : Nat} {names keep idx out} (h : Chosen n names keep idx out) : ∀ i ∈ idx, i < n := by
  cases h with
  | all => simp
  | known l ids idx out hl hst hd hlen hout =>
    intro i hi
    clear hd hlen hout
    induction hst with
    | nil => simp at hi
    | @cons id k ids idx hx _ ih =>
      rcases List.mem_cons.mp hi with rfl | hi
      · cases id with
        | int _ => exact hx.1
        | str s =>
          have : l[i]? = some (some s) := hx
          rw [← hl]
          exact (List.getElem?_eq_some_iff.mp this).1
        | flt _ => exact hx.elim
      · exact ih hi
  | new names ids idx hn hint hd hb => exact hb

/-! ## Theorems -/

/-- **C83 (what is kept).**  Load all of the data once without names from the user and without keep lists (`full`).
Then an object loaded with `keepPoints` and `keepFeatures` consists of exactly the points and features these lists
stand for, in the order of the lists, and every point and feature carries its own name: the one known for it in the
whole data, or, if names are given for the kept ones only, the one given for it. -/
theorem C83_keep {C : CellOps V} {pn fn : NamesArg} {keepP keepF : Option (List Ident)} {rows : List (List V)}
    {full r : Obj V} (hfull : nimbleData C pn.ungiven fn.ungiven rows = .ok full)
    (hP : full.pts.len ≠ 0) (hF : full.fts.len ≠ 0)
    (h : nimbleDataKeep C pn fn keepP keepF true rows = .ok r) :
    ∃ ip jf pnames fnames, Chosen full.pts.len (pn.orOf full.pts) keepP ip pnames ∧
      Chosen full.fts.len (fn.orOf full.fts) keepF jf fnames ∧ KeptFrom full r ip jf pnames fnames := by
  obtain ⟨raw, e1, hw, e2⟩ := full_shape hfull hP hF
  simp only [nimbleDataKeep, if_true, keptData, bind, Except.bind] at h
  cases c1 : checkKeep keepP with
  | error e => rw [c1] at h; cases h
  | ok _ =>
  rw [c1] at h
  dsimp only at h
  cases c2 : checkKeep keepF with
  | error e => rw [c2] at h; cases h
  | ok _ =>
  rw [c2, e1] at h
  dsimp only at h
  rw [e2] at h
  cases hm : Obj.make full.data full.pts.len full.fts.len (namesNow (pn.orOf full.pts) keepP)
      (namesNow (fn.orOf full.fts) keepF) with
  | error e => rw [hm] at h; cases h
  | ok o =>
  rw [hm] at h
  dsimp only at h
  obtain ⟨w, m1, m2, m3, m4, m5, m6, m7, m8, m9⟩ := make_inv hm hw.rows hw.cols
  cases hk : o.keepAxis .point (pn == .yes) (pn.orOf full.pts) keepP with
  | error e => rw [hk] at h; cases h
  | ok o1 =>
  rw [hk] at h
  dsimp only at h
  obtain ⟨ip, pnames, hc1, k1⟩ := keepAxis_ok w (by
    rintro rfl
    show o.pts.getNames = _
    rw [m6]
    show _ = _
    rw [show (o.axis .point).len = full.pts.len from m2]
    rfl) hk
  have hf1 : (o1.axis .feature).len = full.fts.len := k1.offLen.trans m3
  obtain ⟨jf, fnames, hc2, k2⟩ := keepAxis_ok k1.wf (by
    rintro rfl
    show o1.fts.getNames = _
    have : o1.fts.getNames = o.fts.getNames := k1.offNames
    rw [this, m7, hf1]
    rfl) h
  rw [show (o.axis .point).len = full.pts.len from m2] at hc1
  rw [hf1] at hc2
  refine ⟨ip, jf, pnames, fnames, hc1, hc2, k2.wf, ?_, k2.len, ?_, ?_, k2.names⟩
  · have : r.pts.len = o1.pts.len := k2.offLen
    rw [this]; exact k1.len
  · intro i j a b ha hb
    have hall : full.elem? a b = o.elem? a b := by unfold Obj.elem?; rw [m1]
    have g1 := elem_selected_point w k1.bound k1.data (i := i) (j := b)
    have g2 := elem_selected_feature k1.wf k2.bound k2.data (i := i) (j := j)
    rw [g2, hb, Option.bind_some, g1, ha, Option.bind_some, hall]
    refine ⟨rfl, ?_⟩
    rw [← hall]
    have ba := chosen_bound hc1 a (List.mem_of_getElem? ha)
    have bb := chosen_bound hc2 b (List.mem_of_getElem? hb)
    unfold Obj.elem?
    have ba' : a < full.data.length := by rw [hw.rows]; exact ba
    rw [List.getElem?_eq_getElem ba', Option.bind_some, Option.isSome_iff_exists]
    have : b < full.data[a].length := by rw [hw.cols _ (List.getElem_mem ba')]; exact bb
    exact ⟨_, List.getElem?_eq_getElem this⟩
  · have : r.pts.getNames = o1.pts.getNames := k2.offNames
    rw [this]; exact k1.names

/-- A keep list the call cannot take: one for every point, unless the names are taken out of the data
(`pointNames=True`) and all of them are known. -/
def FullListOk (arg : NamesArg) (n : Nat) (names : Option (List (Option String))) (keep : Option (List Ident)) : Prop :=
  ∀ ids, keep = some ids → ids.length = n →
    arg = .yes ∧ ∃ l, names = some l ∧ l.length = n ∧ (n ≤ 1 ∨ none ∉ l)

private theorem chosen_checkKeep {n : Nat} {names keep idx out} (h : Chosen n names keep idx out)
    (hd : ∀ l, names = some l → l.reduceOption.Nodup) : checkKeep keep = .ok () := by
  cases h with
  | all => rfl
  | known l ids idx out hl hst hd' hlen hout =>
    exact checkDuplicates_ok (fun s i j h1 h2 => nodup_of_reduceOption (hd l rfl) h1 h2) hst hd'
  | new names ids idx hn hint hd' hb =>
    refine checkDuplicates_ok (n := n) (l := []) (by simp) (idx := idx) ?_ hd'
    clear hd' hn
    induction hint with
    | nil => exact .nil
    | @cons id k ids idx hx _ ih =>
      refine .cons ?_ (ih (fun i hi => hb i (by simp [hi])))
      rw [hx]
      exact ⟨hb k (by simp), .inl ⟨by omega, rfl⟩⟩

/-- **C83 (acceptance).**  Whenever the keep lists stand for distinct points and features of the data and the names
are distinct (and, with `keepPoints='all'`, one per point), the call succeeds, except for a list naming all of the
points when it is unclear what order the names are in. -/
theorem C83_keep_succeeds {C : CellOps V} {pn fn : NamesArg} {keepP keepF : Option (List Ident)} {rows : List (List V)}
    {full : Obj V} (hfull : nimbleData C pn.ungiven fn.ungiven rows = .ok full)
    (hP : full.pts.len ≠ 0) (hF : full.fts.len ≠ 0) {ip jf : List Nat} {pnames fnames : Option (List (Option String))}
    (hp : Chosen full.pts.len (pn.orOf full.pts) keepP ip pnames)
    (hf : Chosen full.fts.len (fn.orOf full.fts) keepF jf fnames)
    (dp : ∀ l, pn.orOf full.pts = some l → l.reduceOption.Nodup ∧ (keepP = none → l.length = full.pts.len))
    (df : ∀ l, fn.orOf full.fts = some l → l.reduceOption.Nodup ∧ (keepF = none → l.length = full.fts.len))
    (ap : FullListOk pn full.pts.len (pn.orOf full.pts) keepP)
    (af : FullListOk fn full.fts.len (fn.orOf full.fts) keepF) :
    ∃ r, nimbleDataKeep C pn fn keepP keepF true rows = .ok r := by
  obtain ⟨raw, e1, hw, e2⟩ := full_shape hfull hP hF
  have good : ∀ {n : Nat} {names : Option (List (Option String))} {keep : Option (List Ident)},
      (∀ l, names = some l → l.reduceOption.Nodup ∧ (keep = none → l.length = n)) →
      goodNames n (namesNow names keep) := by
    intro n names keep hn
    refine goodNames_now ?_
    intro hk
    cases names with
    | none => trivial
    | some l => exact ⟨(hn l rfl).2 hk, (hn l rfl).1⟩
  obtain ⟨o, hm⟩ := make_good (data := full.data) (good dp) (good df)
  obtain ⟨w, m1, m2, m3, m4, m5, m6, m7, m8, m9⟩ := make_inv hm hw.rows hw.cols
  have ho : (o.axis .point).len = full.pts.len := m2
  obtain ⟨o1, hk1⟩ := keepAxis_succeeds (ex := pn == .yes) w (ax := .point) (by rw [ho]; exact hp) (fun l hl => (dp l hl).1) (by
    intro ids h1 h2
    rw [ho] at h2 ⊢
    obtain ⟨h3, h4⟩ := ap ids h1 h2
    exact ⟨by rw [h3]; rfl, h4⟩)
  obtain ⟨_, _, hc1, k1⟩ := keepAxis_ok w (by
    rintro rfl
    show o.pts.getNames = _
    rw [m6]
    show _ = _
    rw [show (o.axis .point).len = full.pts.len from m2]
    rfl) hk1
  have hf1 : (o1.axis .feature).len = full.fts.len := k1.offLen.trans m3
  obtain ⟨r, hk2⟩ := keepAxis_succeeds (ex := fn == .yes) k1.wf (ax := .feature) (by rw [hf1]; exact hf)
    (fun l hl => (df l hl).1) (by
    intro ids h1 h2
    rw [hf1] at h2 ⊢
    obtain ⟨h3, h4⟩ := af ids h1 h2
    exact ⟨by rw [h3]; rfl, h4⟩)
  refine ⟨r, ?_⟩
  simp only [nimbleDataKeep, if_true, keptData, bind, Except.bind, chosen_checkKeep hp (fun l hl => (dp l hl).1),
    chosen_checkKeep hf (fun l hl => (df l hl).1), e1, e2, hm, hk1, hk2]

/-- With `'all'` for both axes the call is `nimble.data` without keep lists. -/
theorem C83_keep_all (C : CellOps V) (pn fn : NamesArg) (rows : List (List V)) :
    nimbleDataKeep C pn fn none none true rows = nimbleData C pn fn rows := by
  rw [nimbleData_eq]
  simp only [nimbleDataKeep, if_true, keptData, bind, Except.bind, checkKeep, rawParts_eq]
  cases he : rawExtract C (autoDetect C pn fn rows) rows with
  | error e => rfl
  | ok t =>
    obtain ⟨raw, tp, tf⟩ := t
    simp only [Except.map, namesNow, madeFrom, finishData, Obj.keepAxis]
    by_cases hs : sameLengths raw = true
    · rw [if_pos hs, if_pos hs]
      have : convertShaped C raw ((chosenNames pn tp).getD []).length ((chosenNames fn tf).getD []).length
          (chosenNames pn tp) (chosenNames fn tf) = convertRows C raw (chosenNames pn tp) (chosenNames fn tf) := by
        match raw with
        | [] => rfl
        | [] :: _ => rfl
        | (_ :: _) :: _ => rfl
      rw [this]
      cases convertRows C raw (chosenNames pn tp) (chosenNames fn tf) <;> rfl
    · rw [if_neg hs, if_neg hs]

/-- With `rowsArePoints=False` the names are exchanged but the keep lists are not: `keepPoints` is applied to the rows,
which are the features. -/
theorem C83_rows_are_features (C : CellOps V) (pn fn : NamesArg) (keepP keepF : Option (List Ident))
    (rows : List (List V)) (hpf : (pn == .yes) = (fn == .yes)) :
    nimbleDataKeep C pn fn keepP keepF false rows =
      (nimbleDataKeep C fn pn keepP keepF true rows).bind Obj.transpose := by
  simp only [nimbleDataKeep, hpf]
  rfl


/-- **C83 violated (`rowsArePoints=False`).**  Two features of three points, and only the first point is wanted
(`keepPoints=[0]`): the object has all three points and has lost a feature instead. -/
theorem C83_rows_are_features_violated (junk : Cell) :
    ∃ r, nimbleDataKeep (cellOps junk) .no .no (some [.int 0]) none false
        [[.num 1, .num 2, .num 3], [.num 4, .num 5, .num 6]] = .ok r ∧
      r.pts.len = 3 ∧ r.fts.len = 1 ∧ r.data = [[.num 1], [.num 2], [.num 3]] := ⟨_, rfl, rfl, rfl, rfl⟩

/-- **C83 violated (`rowsArePoints=False`, names).**  A point named by the user cannot be kept by its name. -/
theorem C83_rows_are_features_names_violated (junk : Cell) :
    nimbleDataKeep (cellOps junk) (.given [some "a", some "b", some "c"]) .no (some [.str "b"]) none false
      [[.num 1, .num 2, .num 3], [.num 4, .num 5, .num 6]] = .error .InvalidArgumentValue := rfl

/-- Two of three named points in reverse order, by name and by a negative index, and two of three features which are
named in the call only for the kept ones. -/
example : ∃ r, nimbleDataKeep (cellOps .nan) (.given [some "a", some "b", some "c"]) (.given [some "x", some "y"])
      (some [.int (-1), .str "a"]) (some [.int 2, .int 0]) true
      [[.num 1, .num 2, .num 3], [.num 4, .num 5, .num 6], [.num 7, .num 8, .num 9]] = .ok r ∧
    r.data = [[.num 9, .num 7], [.num 3, .num 1]] ∧ r.pts.getNames = [some "c", some "a"] ∧
    r.fts.getNames = [some "x", some "y"] := ⟨_, rfl, rfl, rfl, rfl⟩

/-- The hypotheses of `C83_keep_succeeds` for that call. -/
example : ∃ full, nimbleData (cellOps .nan) (NamesArg.given [some "a", some "b", some "c"]).ungiven
      (NamesArg.given [some "x", some "y"]).ungiven
      [[.num 1, .num 2, .num 3], [.num 4, .num 5, .num 6], [.num 7, .num 8, .num 9]] = .ok full ∧
    Chosen full.pts.len ((NamesArg.given [some "a", some "b", some "c"]).orOf full.pts)
      (some [.int (-1), .str "a"]) [2, 0] (some [some "c", some "a"]) ∧
    Chosen full.fts.len ((NamesArg.given [some "x", some "y"]).orOf full.fts)
      (some [.int 2, .int 0]) [2, 0] (some [some "x", some "y"]) ∧
    FullListOk (.given [some "a", some "b", some "c"]) full.pts.len
      ((NamesArg.given [some "a", some "b", some "c"]).orOf full.pts) (some [.int (-1), .str "a"]) := by
  refine ⟨_, rfl, ?_, ?_, ?_⟩
  · refine .known _ _ _ _ rfl (.cons ⟨by decide, .inr (by decide)⟩ (.cons rfl .nil)) (by decide) rfl ?_
    intro k i h
    match k, h with
    | 0, h => cases h; rfl
    | 1, h => cases h; rfl
  · refine .new _ _ _ ?_ (.cons rfl (.cons rfl .nil)) (by decide) (by decide)
    intro l hl
    cases hl
    decide
  · intro ids h1 h2
    cases h1
    cases h2

end Nimble
