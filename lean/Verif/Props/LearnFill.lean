import Verif.Model.LearnFill
import Verif.Props.Transform
import Verif.Props.Binary
import Verif.Props.Identical
import Verif.Props.Fill
import Verif.Props.Names

/-! # C72: `nimble.fillMatching` -/

namespace Nimble.LearnFill
open Obj

variable {V : Type}

/-! ## The loop -/

theorem elem_setElem (o : Obj V) (i j : Nat) (v : V) (a b : Nat) :
    (setElem o i j v).elem? a b =
      if a = i ∧ b = j then (o.elem? i j).map (fun _ => v) else o.elem? a b := by
  unfold setElem Obj.elem?
  dsimp only
  rw [List.getElem?_modify]
  by_cases hi : a = i
  · subst hi
    cases hr : o.data[a]? with
    | none => simp
    | some r =>
      by_cases hj : b = j
      · subst hj
        by_cases hb : b < r.length
        · simp [hb]
        · simp [List.getElem?_eq_none (Nat.le_of_not_lt hb), Nat.le_of_not_lt hb]
      · simp [hj, Ne.symm hj]
  · simp [hi, Ne.symm hi]

theorem setElem_wf {o : Obj V} (h : o.WF) (i j : Nat) (v : V) : (setElem o i j v).WF where
  rows := by simp [setElem, h.rows]
  cols := by
    intro r hr
    simp only [setElem] at hr
    obtain ⟨k, hk⟩ := List.mem_iff_getElem?.1 hr
    rw [List.getElem?_modify] at hk
    cases hd : o.data[k]? with
    | none => simp [hd] at hk
    | some s =>
      have hs := h.cols s (List.mem_of_getElem? hd)
      rw [hd] at hk
      have hk' : (if i = k then s.set j v else s) = r := by simpa using hk
      rw [← hk']
      split <;> simp [hs, setElem]
  pts := h.pts
  fts := h.fts

theorem fetch_ok {filled : Obj V} {i j : Nat} {v : V} (hv : fetch filled i j = .ok v) :
    filled.elem? i j = some v := by
  unfold fetch at hv
  simp only [bind, Except.bind] at hv
  cases hx : filled.pts.getIndex (.int i) with
  | error e => simp [hx] at hv
  | ok x =>
    simp only [hx] at hv
    cases hy : filled.fts.getIndex (.int j) with
    | error e => simp [hy] at hv
    | ok y =>
      simp only [hy] at hv
      have ex : x = (i : Int) := by
        have := (C04_getIndex_int _ _ _).1 hx
        omega
      have ey : y = (j : Int) := by
        have := (C04_getIndex_int _ _ _).1 hy
        omega
      subst ex ey
      simp only [Int.toNat_natCast] at hv
      cases he : filled.elem? i j with
      | none => simp [he] at hv
      | some w => simp [he] at hv; rw [hv]

theorem fetch_some {filled : Obj V} (h : filled.WF) {i j : Nat} (hi : i < filled.pts.len)
    (hj : j < filled.fts.len) : ∃ v, fetch filled i j = .ok v := by
  obtain ⟨r, h1, _, l1⟩ := h.vector_point hi
  have e1 : filled.elem? i j = some r[j] := by simp [Obj.elem?, h1, l1, hj]
  have hx : filled.pts.getIndex (.int i) = .ok (i : Int) := (C04_getIndex_int _ _ _).2 (by omega)
  have hy : filled.fts.getIndex (.int j) = .ok (j : Int) := (C04_getIndex_int _ _ _).2 (by omega)
  exact ⟨r[j], by simp [fetch, bind, Except.bind, hx, hy, e1]⟩

theorem fillLoop_frame (mask : Obj Bool) (filled : Obj V) (lp lf : Option (List Nat))
    (ps : List (Nat × Nat)) {o : Obj V} (h : o.WF) :
    (fillLoop mask filled lp lf ps o).1.WF ∧ (fillLoop mask filled lp lf ps o).1.pts = o.pts ∧
    (fillLoop mask filled lp lf ps o).1.fts = o.fts := by
  induction ps generalizing o with
  | nil => exact ⟨h, rfl, rfl⟩
  | cons p ps ih =>
    unfold fillLoop
    split
    · split
      · next v _ =>
        obtain ⟨a, b, c⟩ := ih (setElem_wf h p.1 p.2 v)
        exact ⟨a, b, c⟩
      · exact ⟨h, rfl, rfl⟩
    · exact ih h

theorem fillLoop_elem (mask : Obj Bool) (filled : Obj V) (lp lf : Option (List Nat))
    (ps : List (Nat × Nat)) (o : Obj V) (hok : (fillLoop mask filled lp lf ps o).2 = .ok ()) (a b : Nat) :
    (fillLoop mask filled lp lf ps o).1.elem? a b =
      if (a, b) ∈ ps ∧ wanted mask lp lf a b = true then (o.elem? a b).bind (fun _ => filled.elem? a b)
      else o.elem? a b := by
  induction ps generalizing o with
  | nil => simp [fillLoop]
  | cons p ps ih =>
    obtain ⟨i, j⟩ := p
    simp only [fillLoop] at hok ⊢
    by_cases hw : wanted mask lp lf i j = true
    · rw [if_pos hw] at hok ⊢
      cases hf : fetch filled i j with
      | error e => simp [hf] at hok
      | ok v =>
        simp only [hf] at hok ⊢
        rw [ih _ hok, elem_setElem]
        have hv := fetch_ok hf
        by_cases hab : a = i ∧ b = j
        · obtain ⟨rfl, rfl⟩ := hab
          simp only [and_self, if_true, hw, and_true, List.mem_cons, true_or]
          by_cases hm : (a, b) ∈ ps
          · simp only [hm, if_true]
            cases o.elem? a b <;> simp
          · simp only [hm, if_false]
            cases o.elem? a b <;> simp [hv]
        · rw [if_neg hab]
          have : (a, b) ∈ (i, j) :: ps ↔ (a, b) ∈ ps := by
            simp only [List.mem_cons, Prod.mk.injEq]
            exact ⟨fun h => h.resolve_left hab, Or.inr⟩
          simp only [this]
    · rw [if_neg hw] at hok ⊢
      rw [ih _ hok]
      by_cases hab : a = i ∧ b = j
      · obtain ⟨rfl, rfl⟩ := hab
        simp [hw]
      · have : (a, b) ∈ (i, j) :: ps ↔ (a, b) ∈ ps := by
          simp only [List.mem_cons, Prod.mk.injEq]
          exact ⟨fun h => h.resolve_left hab, Or.inr⟩
        simp only [this]

theorem fillLoop_succeeds (mask : Obj Bool) (filled : Obj V) (lp lf : Option (List Nat))
    (ps : List (Nat × Nat)) (o : Obj V)
    (h : ∀ p ∈ ps, wanted mask lp lf p.1 p.2 = true → ∃ v, fetch filled p.1 p.2 = .ok v) :
    (fillLoop mask filled lp lf ps o).2 = .ok () := by
  induction ps generalizing o with
  | nil => rfl
  | cons p ps ih =>
    unfold fillLoop
    split
    · next hw =>
      obtain ⟨v, hv⟩ := h p (by simp) hw
      rw [hv]
      exact ih _ (fun q hq => h q (by simp [hq]))
    · exact ih _ (fun q hq => h q (by simp [hq]))

theorem mem_cells {n m a b : Nat} : (a, b) ∈ cells n m ↔ a < n ∧ b < m := by
  simp [cells]

/-! ## The object handed to the learner -/

theorem const_elem {c : V} {v : List V} {b : List Bool} (h : b.length = v.length) (i : Nat) :
    (Fill.constant c v b)[i]? = if b[i]? = some true then some c else v[i]? := by
  obtain ⟨⟨hl, hk⟩, hm⟩ := Fill.C28_constant c v b h
  split
  · next ht => exact hm i ht
  · next ht =>
    by_cases hi : i < b.length
    · have hb : b[i]? = some false := by
        rw [List.getElem?_eq_getElem hi] at ht ⊢
        cases hbi : b[i] <;> simp_all
      exact hk i hb
    · rw [List.getElem?_eq_none (by rw [hl]; omega), List.getElem?_eq_none (by omega)]

/-- Same names and shape; nan at the matched positions, everything else unchanged. -/
def MaskedCopy (nan : V) (mask : Obj Bool) (o t : Obj V) : Prop :=
  t.WF ∧ t.pts = o.pts ∧ t.fts = o.fts ∧
  ∀ i j, t.elem? i j = if mask.elem? i j = some true then some nan else o.elem? i j

theorem elem_none {o : Obj V} (h : o.WF) {i j : Nat} (hij : ¬ (i < o.pts.len ∧ j < o.fts.len)) :
    o.elem? i j = none := by
  unfold Obj.elem?
  cases hr : o.data[i]? with
  | none => rfl
  | some r =>
    have hi : i < o.data.length := (List.getElem?_eq_some_iff.1 hr).1
    have hc := h.cols r (List.mem_of_getElem? hr)
    rw [h.rows] at hi
    show r[j]? = none
    exact List.getElem?_eq_none (by rw [hc]; omega)

theorem toFill_spec {nan : V} {mask : Obj Bool} {o t : Obj V} (h : o.WF) (hm : mask.WF)
    (hp : mask.pts.len = o.pts.len) (hf : mask.fts.len = o.fts.len) (ht : toFill nan mask o = .ok t) :
    MaskedCopy nan mask o t := by
  unfold toFill outcome at ht
  have hc := C28_fillMatching_object_partial (fun v b => .ok (Fill.constant nan v b)) mask o .feature .all h
    trivial
  cases hr : fillMatching (fun v b => .ok (Fill.constant nan v b)) (.obj mask) o .feature .all with
  | mk o' res =>
    rw [hr] at ht
    cases res with
    | error e => simp [Except.map] at ht
    | ok u =>
      simp only [Except.map, Except.ok.injEq] at ht
      subst ht
      obtain ⟨want, hd, hT⟩ := hc o' hr
      have hall : ∀ i, want i = true := by
        rcases hd with ⟨_, h⟩ | ⟨l, idx, h, _⟩
        · exact h
        · simp [Limit.idents] at h
      refine ⟨hT.wf, hT.pts, hT.fts, ?_⟩
      intro i j
      by_cases hij : i < o.pts.len ∧ j < o.fts.len
      · obtain ⟨hi, hj⟩ := hij
        have hd := hT.done j hj (hall j)
        simp only [Except.ok.injEq, Matcher.rowFor] at hd
        have e1 := (hT.wf.vector_elem (i := i) (j := j) (by rw [hT.pts]; exact hi) (by rw [hT.fts]; exact hj)).2
        have e2 := (h.vector_elem hi hj).2
        have e3 := (hm.vector_elem (i := i) (j := j) (by omega) (by omega)).2
        rw [← e1, ← hd, const_elem, e2, e3]
        have l1 := hm.length_vector .feature (i := j) (by show j < mask.fts.len; omega)
        have l2 := h.length_vector .feature (i := j) hj
        rw [l1, l2]
        exact hp
      · have n1 := elem_none hT.wf (i := i) (j := j) (by rw [hT.pts, hT.fts]; exact hij)
        have n2 := elem_none h hij
        have n3 := elem_none hm (i := i) (j := j) (by rw [hp, hf]; exact hij)
        simp [n1, n2, n3]

/-! ## The mask -/

theorem matching_wf (m : V → Bool) {o : Obj V} (h : o.WF) : (matching m o).WF where
  rows := by simp [matching, h.rows]
  cols := by
    intro r hr
    simp only [matching, List.mem_map] at hr
    obtain ⟨s, hs, rfl⟩ := hr
    simp [h.cols s hs, matching]
  pts := h.pts
  fts := h.fts

theorem matching_elem (m : V → Bool) (o : Obj V) (i j : Nat) :
    (matching m o).elem? i j = (o.elem? i j).map m := by
  unfold matching Obj.elem?
  dsimp only
  rw [List.getElem?_map]
  cases o.data[i]? <;> simp

/-- Which elements are to be replaced. -/
def IsMask (arg : MaskArg V) (o : Obj V) (mask : Obj Bool) : Prop :=
  match arg with
  | .func m => ∀ i j, mask.elem? i j = (o.elem? i j).map m
  | .obj b => mask = b

def ArgWF : MaskArg V → Prop
  | .func _ => True
  | .obj b => b.WF

theorem maskOf_spec {nan : V} {arg : MaskArg V} {o : Obj V} {p : Obj Bool × Bool} (h : o.WF)
    (ha : ArgWF arg) (hp : maskOf nan arg o = .ok p) :
    p.1.WF ∧ p.1.pts.len = o.pts.len ∧ p.1.fts.len = o.fts.len ∧ IsMask arg o p.1 := by
  cases arg with
  | func m =>
    simp only [maskOf, Except.ok.injEq] at hp
    subst hp
    exact ⟨matching_wf m h, rfl, rfl, matching_elem m o⟩
  | obj b =>
    simp only [maskOf] at hp
    split at hp
    · next hd =>
      simp only [Except.ok.injEq] at hp
      subst hp
      exact ⟨ha, hd.1, hd.2, rfl⟩
    · simp at hp

theorem prepare_ok {learn : Obj V → Res (Obj V)} {missing : V → Bool} {nan : V} {arg : MaskArg V}
    {o : Obj V} {p : Obj Bool × Obj V} (hp : prepare learn missing nan arg o = .ok p) :
    ∃ check t, maskOf nan arg o = .ok (p.1, check) ∧ nanGuard check missing p.1 o = .ok () ∧
      toFill nan p.1 o = .ok t ∧ learn t = .ok p.2 := by
  simp only [prepare, bind, Except.bind, pure, Except.pure] at hp
  cases h1 : maskOf nan arg o with
  | error e => simp [h1] at hp
  | ok q =>
    simp only [h1] at hp
    cases h2 : nanGuard q.2 missing q.1 o with
    | error e => simp [h2] at hp
    | ok u =>
      simp only [h2] at hp
      cases h3 : toFill nan q.1 o with
      | error e => simp [h3] at hp
      | ok t =>
        simp only [h3] at hp
        cases h4 : learn t with
        | error e => simp [h4] at hp
        | ok f =>
          simp only [h4, Except.ok.injEq] at hp
          subst hp
          exact ⟨q.2, t, rfl, h2, h3, h4⟩

theorem denotes_of_limit {a : AxisSt} {ids : Option (List Ident)} {lim : Option (List Nat)}
    (h : resolveLimit a ids = .ok lim) : Denotes a ids (inLimit lim) := by
  cases ids with
  | none => simp [resolveLimit] at h; subst h; exact .inl ⟨rfl, fun _ => rfl⟩
  | some l =>
    simp only [resolveLimit] at h
    cases hl : resolveIdents a l with
    | error e => simp [hl, Except.map] at h
    | ok idx =>
      simp [hl, Except.map] at h; subst h
      exact .inr ⟨l, idx, rfl, hl, fun _ => rfl⟩

theorem limits_ok {o : Obj V} {points features : Limit} {l : Option (List Nat) × Option (List Nat)}
    (h : limits o points features = .ok l) :
    Denotes o.pts points.idents (inLimit l.1) ∧ Denotes o.fts features.idents (inLimit l.2) := by
  simp only [limits, bind, Except.bind, pure, Except.pure] at h
  cases h1 : resolveLimit o.pts points.idents with
  | error e => simp [h1] at h
  | ok lp =>
    simp only [h1] at h
    cases h2 : resolveLimit o.fts features.idents with
    | error e => simp [h2] at h
    | ok lf =>
      simp only [h2, Except.ok.injEq] at h
      subst h
      exact ⟨denotes_of_limit h1, denotes_of_limit h2⟩

/-! ## The property -/

/-- **C72** When `nimble.fillMatching` succeeds: the learner was given a copy of the data in which exactly the
matched elements are missing; every matched element within the given points and features is now what the
learner put at its position; every other element, the shape and all names are unchanged. -/
theorem C72_fill {learn : Obj V → Res (Obj V)} {missing : V → Bool} {nan : V} {arg : MaskArg V}
    {o o' : Obj V} {points features : Limit} (h : o.WF) (ha : ArgWF arg)
    (hr : learnFill learn missing nan arg o points features = (o', .ok ())) :
    ∃ mask t filled wantP wantF, IsMask arg o mask ∧ MaskedCopy nan mask o t ∧ learn t = .ok filled ∧
      Denotes o.pts points.idents wantP ∧ Denotes o.fts features.idents wantF ∧
      o'.WF ∧ o'.pts = o.pts ∧ o'.fts = o.fts ∧
      ∀ i j, i < o.pts.len → j < o.fts.len →
        o'.elem? i j = if wantP i = true ∧ wantF j = true ∧ mask.elem? i j = some true
          then filled.elem? i j else o.elem? i j := by
  unfold learnFill at hr
  cases hp : prepare learn missing nan arg o with
  | error e => simp [hp] at hr
  | ok p =>
    simp only [hp] at hr
    obtain ⟨check, t, h1, _, h3, h4⟩ := prepare_ok hp
    obtain ⟨mw, mp, mf, mm⟩ := maskOf_spec h ha h1
    unfold applyFill at hr
    cases hl : limits o points features with
    | error e => simp [hl] at hr
    | ok l =>
      simp only [hl] at hr
      obtain ⟨d1, d2⟩ := limits_ok hl
      have hok : (fillLoop p.1 p.2 l.1 l.2 (cells o.pts.len o.fts.len) o).2 = .ok () := by rw [hr]
      have ho' : (fillLoop p.1 p.2 l.1 l.2 (cells o.pts.len o.fts.len) o).1 = o' := by rw [hr]
      obtain ⟨f1, f2, f3⟩ := fillLoop_frame p.1 p.2 l.1 l.2 (cells o.pts.len o.fts.len) h
      have fe := fillLoop_elem p.1 p.2 l.1 l.2 (cells o.pts.len o.fts.len) o hok
      rw [ho'] at f1 f2 f3
      simp only [ho'] at fe
      refine ⟨p.1, t, p.2, inLimit l.1, inLimit l.2, mm, toFill_spec h mw mp mf h3, h4, d1, d2, f1, f2, f3, ?_⟩
      intro i j hi hj
      rw [fe i j]
      have hw : wanted p.1 l.1 l.2 i j = true ↔
          (inLimit l.1 i = true ∧ inLimit l.2 j = true ∧ p.1.elem? i j = some true) := by
        unfold wanted
        rw [Bool.and_eq_true, Bool.and_eq_true, and_assoc]
        cases p.1.elem? i j <;> simp
      obtain ⟨r, hr1, _, hr2⟩ := h.vector_point hi
      have he : o.elem? i j = some r[j] := by simp [Obj.elem?, hr1, hr2, hj]
      by_cases hq : inLimit l.1 i = true ∧ inLimit l.2 j = true ∧ p.1.elem? i j = some true
      · rw [if_pos ⟨mem_cells.2 ⟨hi, hj⟩, hw.2 hq⟩, if_pos hq, he]
        rfl
      · rw [if_neg (fun hh => hq (hw.1 hh.2)), if_neg hq]

/-- **C72** Whatever goes wrong (shape, unmatched missing values, the learner, the `points` or `features`
argument), `trainX` is unchanged — provided the learner returns an object of the shape it was given. -/
theorem C72_failure_unchanged_partial {learn : Obj V → Res (Obj V)} {missing : V → Bool} {nan : V} {arg : MaskArg V}
    {o o' : Obj V} {points features : Limit} {e : Err} (h : o.WF) (ha : ArgWF arg)
    (hl : ∀ t r, learn t = .ok r → r.WF ∧ r.pts.len = t.pts.len ∧ r.fts.len = t.fts.len)
    (hr : learnFill learn missing nan arg o points features = (o', .error e)) : o' = o := by
  unfold learnFill at hr
  cases hp : prepare learn missing nan arg o with
  | error e => simp [hp] at hr; exact hr.1.symm
  | ok p =>
    simp only [hp] at hr
    obtain ⟨check, t, h1, _, h3, h4⟩ := prepare_ok hp
    obtain ⟨mw, mp, mf, mm⟩ := maskOf_spec h ha h1
    obtain ⟨tw, tp, tf, _⟩ := toFill_spec h mw mp mf h3
    obtain ⟨lw, lp, lf⟩ := hl t p.2 h4
    unfold applyFill at hr
    cases hlm : limits o points features with
    | error e => simp [hlm] at hr; exact hr.1.symm
    | ok l =>
      simp only [hlm] at hr
      have := fillLoop_succeeds p.1 p.2 l.1 l.2 (cells o.pts.len o.fts.len) o (by
        rintro ⟨a, b⟩ hab _
        obtain ⟨ha, hb⟩ := mem_cells.1 hab
        exact fetch_some lw (by rw [lp, tp]; exact ha) (by rw [lf, tf]; exact hb))
      rw [hr] at this
      simp at this

/-! ## The check for missing values -/

theorem nanCheck_iff {missing : V → Bool} {mask : Obj Bool} {o : Obj V} (h : o.WF) (hm : mask.WF)
    (hp : mask.pts.len = o.pts.len) (hf : mask.fts.len = o.fts.len) (h0 : 0 < o.pts.len) (h1 : 0 < o.fts.len) :
    nanCheck missing mask o = .ok () ↔
      BinaryNamesOk false mask (matching missing o) ∧
      ∃ r, mask.binaryOp (fun a b => a || b) false (matching missing o) = .ok r ∧
        r.pts.getNames = mask.pts.getNames ∧ r.fts.getNames = mask.fts.getNames ∧
        ∀ i j x, o.elem? i j = some x → missing x = true → mask.elem? i j = some true := by
  have hw := matching_wf missing h
  obtain ⟨b1, b2⟩ := C15_binary_operation (fun a b => a || b) false hm hw
  simp only [nanCheck, bind, Except.bind, pure, Except.pure]
  cases hb : mask.binaryOp (fun a b => a || b) false (matching missing o) with
  | error e =>
    constructor
    · intro hh; simp at hh
    · rintro ⟨_, r, hr, _⟩; simp at hr
  | ok r =>
    dsimp only
    obtain ⟨rw', rp, rf, re, _⟩ := b2 r hb
    have hn := (b1.1 ⟨r, hb⟩).2.2.2.2
    have hi := C16_isIdentical_iff boolCmp rw' hm
    have key : Identical (SameVal boolCmp) r mask ↔
        (r.pts.getNames = mask.pts.getNames ∧ r.fts.getNames = mask.fts.getNames ∧
        ∀ i j x, o.elem? i j = some x → missing x = true → mask.elem? i j = some true) := by
      constructor
      · intro hid
        refine ⟨hid.pNames, hid.fNames, ?_⟩
        intro i j x hx hmx
        have hij : i < o.pts.len ∧ j < o.fts.len := by
          by_contra hc
          rw [elem_none h hc] at hx
          simp at hx
        obtain ⟨a, b, ea, eb, er⟩ := re i j (by omega) (by omega)
        rw [matching_elem, hx] at eb
        simp only [Option.map_some, hmx, Option.some.injEq] at eb
        subst eb
        have := hid.elems i j _ _ er ea
        rw [ea]
        cases a <;> simp [SameVal, boolCmp] at this ⊢
      · rintro ⟨n1, n2, n3⟩
        refine ⟨rp, rf, n1, n2, ?_⟩
        intro i j x y hx hy
        have hij : i < mask.pts.len ∧ j < mask.fts.len := by
          by_contra hc
          rw [elem_none hm hc] at hy
          simp at hy
        obtain ⟨a, b, ea, eb, er⟩ := re i j hij.1 hij.2
        rw [hx] at er
        rw [hy] at ea
        simp only [Option.some.injEq] at er ea
        subst ea er
        rw [matching_elem] at eb
        cases ho : o.elem? i j with
        | none => simp [ho] at eb
        | some v =>
          simp only [ho, Option.map_some, Option.some.injEq] at eb
          cases hb' : b with
          | false => simp [SameVal, boolCmp]
          | true =>
            have := n3 i j v ho (by rw [eb, hb'])
            rw [hy] at this
            simp only [Option.some.injEq] at this
            simp [SameVal, boolCmp, this]
    constructor
    · intro hh
      refine ⟨hn, r, rfl, ?_⟩
      by_cases hc : isIdentical boolCmp r mask = true
      · have := key.1 (hi.1 hc)
        exact this
      · simp [hc] at hh
    · rintro ⟨_, r', hr', hh⟩
      simp only [Except.ok.injEq] at hr'
      subst hr'
      have := hi.2 (key.2 hh)
      simp [this]

theorem namesAgree_self {a : AxisSt} (h : a.Ok) : NamesAgree a.getNames a.getNames := by
  refine ⟨fun i s t hs ht => ?_, fun i j s hi hj => ?_⟩
  · rw [hs] at ht
    simpa using ht
  · exact reduceOption_nodup_iff.1 h.reduceOption_nodup i j s hi hj

theorem merged_self {res l : List (Option String)} (h : MergedNames res l l) : res = l := by
  obtain ⟨h1, h2⟩ := h
  refine List.ext_getElem? fun i => ?_
  by_cases hi : i < l.length
  · have e1 : l[i]? = some l[i] := List.getElem?_eq_getElem hi
    have e2 : res[i]? = some res[i] := List.getElem?_eq_getElem (by omega)
    cases hl : l[i] with
    | some s =>
      rw [e1, hl]
      exact (h2 i s).2 (Or.inl (by rw [e1, hl]))
    | none =>
      rw [e1, hl]
      cases hr : res[i]'(by omega) with
      | none => rw [e2, hr]
      | some s =>
        have := (h2 i s).1 (by rw [e2, hr])
        rw [e1, hl] at this
        simp at this
  · rw [List.getElem?_eq_none (by omega), List.getElem?_eq_none (by omega)]

/-- With a matching function the check looks at the elements only: every missing element must be
matched. -/
theorem nanCheck_func {missing m : V → Bool} {o : Obj V} (h : o.WF) (h0 : 0 < o.pts.len) (h1 : 0 < o.fts.len) :
    nanCheck missing (matching m o) o = .ok () ↔
      ∀ i j x, o.elem? i j = some x → missing x = true → m x = true := by
  rw [nanCheck_iff h (matching_wf m h) rfl rfl h0 h1]
  obtain ⟨b1, b2⟩ := C15_binary_operation (fun a b => a || b) false (matching_wf m h) (matching_wf missing h)
  have hn : BinaryNamesOk false (matching m o) (matching missing o) :=
    Or.inl ⟨namesAgree_self h.pts, namesAgree_self h.fts⟩
  obtain ⟨r, hr⟩ := b1.2 ⟨rfl, rfl, h0, h1, hn⟩
  obtain ⟨_, _, _, _, np, nf, _⟩ := b2 r hr
  constructor
  · rintro ⟨_, r', _, _, _, hh⟩ i j x hx hm
    have := hh i j x hx hm
    rw [matching_elem, hx] at this
    simpa using this
  · intro hh
    refine ⟨hn, r, hr, merged_self (np (namesAgree_self h.pts)), merged_self (nf (namesAgree_self h.fts)), ?_⟩
    intro i j x hx hm
    rw [matching_elem, hx]
    simp [hh i j x hx hm]

theorem nanCheck_error {missing : V → Bool} {mask : Obj Bool} {o : Obj V} (h : o.WF) (hm : mask.WF)
    (hp : mask.pts.len = o.pts.len) (hf : mask.fts.len = o.fts.len) (h0 : 0 < o.pts.len) (h1 : 0 < o.fts.len)
    (hn : BinaryNamesOk false mask (matching missing o)) (hne : nanCheck missing mask o ≠ .ok ()) :
    nanCheck missing mask o = .error .ImproperObjectAction := by
  obtain ⟨b1, _⟩ := C15_binary_operation (fun a b => a || b) false hm (matching_wf missing h)
  obtain ⟨r, hr⟩ := b1.2 ⟨hp, hf, by omega, by omega, hn⟩
  simp only [nanCheck, bind, Except.bind, pure, Except.pure, hr] at hne ⊢
  split at hne
  · exact absurd rfl hne
  · next hc => rw [if_neg hc]

theorem learnFill_of_prepare {learn : Obj V → Res (Obj V)} {missing : V → Bool} {nan : V} {arg : MaskArg V}
    {o : Obj V} {points features : Limit} {e : Err} (h : prepare learn missing nan arg o = .error e) :
    learnFill learn missing nan arg o points features = (o, .error e) := by
  simp [learnFill, h]

/-- **C72** Data with a missing element that is not matched is refused, whatever the learner, and left
unchanged (unless the matching function matches missing values as such). -/
theorem C72_unmatched_refused {learn : Obj V → Res (Obj V)} {missing m : V → Bool} {nan : V} {o : Obj V}
    {points features : Limit} (h : o.WF) (hnan : m nan = false) {i j : Nat} {x : V} (hx : o.elem? i j = some x)
    (hmx : missing x = true) (hum : m x = false) :
    learnFill learn missing nan (.func m) o points features = (o, .error .ImproperObjectAction) := by
  have hij : i < o.pts.len ∧ j < o.fts.len := by
    by_contra hc
    rw [elem_none h hc] at hx
    simp at hx
  apply learnFill_of_prepare
  have hc : nanCheck missing (matching m o) o = .error .ImproperObjectAction := by
    have hn : BinaryNamesOk false (matching m o) (matching missing o) :=
      Or.inl ⟨namesAgree_self h.pts, namesAgree_self h.fts⟩
    apply nanCheck_error h (matching_wf m h) rfl rfl (by omega) (by omega) hn
    rw [ne_eq, nanCheck_func h (by omega) (by omega)]
    intro hall
    have := hall i j x hx hmx
    rw [hum] at this
    simp at this
  simp [prepare, bind, Except.bind, maskOf, hnan, nanGuard, hc]

/-- The same with a boolean object (of the right shape, with names that do not conflict). -/
theorem C72_unmatched_refused_object {learn : Obj V → Res (Obj V)} {missing : V → Bool} {nan : V} {o : Obj V}
    {b : Obj Bool} {points features : Limit} (h : o.WF) (hb : b.WF) (hp : b.pts.len = o.pts.len)
    (hf : b.fts.len = o.fts.len) (hn : BinaryNamesOk false b (matching missing o)) {i j : Nat} {x : V}
    (hx : o.elem? i j = some x) (hmx : missing x = true) (hum : b.elem? i j ≠ some true) :
    learnFill learn missing nan (.obj b) o points features = (o, .error .ImproperObjectAction) := by
  have hij : i < o.pts.len ∧ j < o.fts.len := by
    by_contra hc
    rw [elem_none h hc] at hx
    simp at hx
  apply learnFill_of_prepare
  have hc : nanCheck missing b o = .error .ImproperObjectAction := by
    apply nanCheck_error h hb hp hf (by omega) (by omega) hn
    rw [ne_eq, nanCheck_iff h hb hp hf (by omega) (by omega)]
    rintro ⟨_, r, _, _, _, hall⟩
    exact hum (hall i j x hx hmx)
  simp [prepare, bind, Except.bind, maskOf, hp, hf, nanGuard, hc]

/-- **C72 violated**: the check compares the names as well.  If `trainX` names a feature and the boolean
object does not, the call is refused with "filling requires all unmatched elements to be non-nan" —
whatever the data, also when nothing is missing or every missing element is matched. -/
theorem C72_mask_names_violated {learn : Obj V → Res (Obj V)} {missing : V → Bool} {nan : V} {o : Obj V}
    {b : Obj Bool} {points features : Limit} (h : o.WF) (hb : b.WF) (hp : b.pts.len = o.pts.len)
    (hf : b.fts.len = o.fts.len) (h0 : 0 < o.pts.len) (hbp : b.pts.tbl = none) (hbf : b.fts.tbl = none)
    {j : Nat} {s : String} (hj : o.fts.getNames[j]? = some (some s)) :
    learnFill learn missing nan (.obj b) o points features = (o, .error .ImproperObjectAction) := by
  have h1 : 0 < o.fts.len := by
    have := (List.getElem?_eq_some_iff.1 hj).1
    rw [h.fts.length_getNames] at this
    omega
  have ap : NamesAgree b.pts.getNames o.pts.getNames := (namesAgree_default_right (default_of_none hbp)).symm
  have af : NamesAgree b.fts.getNames o.fts.getNames := (namesAgree_default_right (default_of_none hbf)).symm
  have hn : BinaryNamesOk false b (matching missing o) := Or.inl ⟨ap, af⟩
  apply learnFill_of_prepare
  have hc : nanCheck missing b o = .error .ImproperObjectAction := by
    apply nanCheck_error h hb hp hf h0 h1 hn
    rw [ne_eq, nanCheck_iff h hb hp hf h0 h1]
    rintro ⟨_, r, hr, _, n2, _⟩
    obtain ⟨_, b2⟩ := C15_binary_operation (fun a b => a || b) false hb (matching_wf missing h)
    obtain ⟨_, _, _, _, _, nf, _⟩ := b2 r hr
    have := ((nf af).2 j s).2 (Or.inr hj)
    rw [n2] at this
    have := default_of_none hbf _ (List.mem_of_getElem? this)
    simp at this
  simp [prepare, bind, Except.bind, maskOf, hp, hf, nanGuard, hc]

/-! ## Success -/

theorem nanMask_loop (nan : V) (mask : Obj Bool) (o : Obj V) (h : o.WF) (hm : mask.WF)
    (hp : mask.pts.len = o.pts.len) (hf : mask.fts.len = o.fts.len) (is : List Nat)
    (his : ∀ i ∈ is, i < o.fts.len) (o1 : Obj V) (h1 : o1.WF) (e1 : o1.pts = o.pts) (e2 : o1.fts = o.fts) :
    ∃ o', transformLoop (fillFunction (fun v b => .ok (Fill.constant nan v b)) (.obj mask) .feature)
      (inLimit none) .feature is (is.map (fun (k : Nat) => Ident.int k)) o1 = (o', .ok ()) := by
  induction is generalizing o1 with
  | nil => exact ⟨o1, rfl⟩
  | cons i is ih =>
    have hi := his i (by simp)
    have hgi : (mask.axis .feature).getIndex (.int i) true = .ok (i : Int) := by
      show mask.fts.getIndex (.int i) true = .ok (i : Int)
      have : mask.fts.getIndex (.int i) true = mask.fts.getIndex (.int i) := rfl
      rw [this]
      exact (C04_getIndex_int _ _ _).2 (by omega)
    have hrow : matcherRow mask .feature ((i :: is).map (fun (k : Nat) => Ident.int k)) =
        .ok (mask.vector .feature i, is.map (fun (k : Nat) => Ident.int k)) := by
      simp only [matcherRow, List.map_cons, hgi]
      rfl
    have l1 := h1.length_vector .feature (i := i) (by show i < o1.fts.len; rw [e2]; exact hi)
    have l2 := hm.length_vector .feature (i := i) (by show i < mask.fts.len; omega)
    have hlen : (Fill.constant nan (o1.vector .feature i) (mask.vector .feature i)).length = o1.pts.len := by
      simp only [Fill.constant, List.length_map, List.length_zip]
      rw [l1, l2]
      show min o1.pts.len mask.pts.len = o1.pts.len
      rw [hp, e1]; simp
    have hc : checkedLength (o1.axis Ax.feature.off).len
        (fillFunction (fun v b => .ok (Fill.constant nan v b)) (.obj mask) .feature
          ((i :: is).map (fun (k : Nat) => Ident.int k)) (o1.vector .feature i)) =
        .ok (Fill.constant nan (o1.vector .feature i) (mask.vector .feature i),
          is.map (fun (k : Nat) => Ident.int k)) := by
      simp only [fillFunction, hrow, bind, Except.bind, pure, Except.pure, checkedLength]
      rw [if_neg]
      simpa [Ax.off, Obj.axis] using hlen
    obtain ⟨o', ho'⟩ := ih (fun k hk => his k (by simp [hk])) (o1.setVector .feature i _)
      (setVector_WF h1 hlen) e1 e2
    refine ⟨o', ?_⟩
    rw [← ho']
    simp only [transformLoop, inLimit, if_true]
    rw [hc]

theorem toFill_succeeds (nan : V) {mask : Obj Bool} {o : Obj V} (h : o.WF) (hm : mask.WF)
    (hp : mask.pts.len = o.pts.len) (hf : mask.fts.len = o.fts.len) (h0 : 0 < o.pts.len) (h1 : 0 < o.fts.len) :
    ∃ t, toFill nan mask o = .ok t := by
  obtain ⟨t, ht⟩ := nanMask_loop nan mask o h hm hp hf (List.range o.fts.len) (by simp) o h rfl rfl
  refine ⟨t, ?_⟩
  have : fillMatching (fun v b => .ok (Fill.constant nan v b)) (.obj mask) o .feature .all = (t, .ok ()) := by
    simp only [fillMatching, Limit.idxOrder, transformWith, Limit.idents, resolveLimit]
    rw [if_neg (by omega), if_neg (by omega)]
    exact ht
  simp [toFill, outcome, this, Except.map]

/-- **C72** What is accepted: data that is not empty, with every missing element matched (or a function that
matches missing values as such), valid points and features, and a learner that accepts the masked copy and
returns an object of its shape. -/
theorem C72_succeeds {learn : Obj V → Res (Obj V)} {missing m : V → Bool} {nan : V} {o : Obj V}
    {points features : Limit} {l : Option (List Nat) × Option (List Nat)} (h : o.WF) (h0 : 0 < o.pts.len)
    (h1 : 0 < o.fts.len)
    (hm : m nan = true ∨ ∀ i j x, o.elem? i j = some x → missing x = true → m x = true)
    (hl : limits o points features = .ok l)
    (hlearn : ∀ t : Obj V, t.WF → t.pts = o.pts → t.fts = o.fts →
      ∃ r, learn t = .ok r ∧ r.WF ∧ r.pts.len = o.pts.len ∧ r.fts.len = o.fts.len) :
    ∃ o', learnFill learn missing nan (.func m) o points features = (o', .ok ()) := by
  have hw := matching_wf m h
  obtain ⟨t, ht⟩ := toFill_succeeds nan h hw rfl rfl h0 h1
  obtain ⟨tw, tp, tf, _⟩ := toFill_spec h hw rfl rfl ht
  obtain ⟨r, hr, rw', rp, rf⟩ := hlearn t tw tp tf
  have hg : nanGuard (!m nan) missing (matching m o) o = .ok () := by
    unfold nanGuard
    by_cases hc : m nan = true
    · simp [hc]
    · rw [if_pos (by simpa using hc)]
      exact (nanCheck_func h h0 h1).2 (hm.resolve_left hc)
  have hp : prepare learn missing nan (.func m) o = .ok (matching m o, r) := by
    simp [prepare, bind, Except.bind, pure, Except.pure, maskOf, hg, ht, hr]
  refine ⟨(fillLoop (matching m o) r l.1 l.2 (cells o.pts.len o.fts.len) o).1, ?_⟩
  simp only [learnFill, hp, applyFill, hl]
  refine Prod.ext rfl ?_
  apply fillLoop_succeeds
  rintro ⟨a, b⟩ hab _
  obtain ⟨ha, hb⟩ := mem_cells.1 hab
  exact fetch_some rw' (by rw [rp]; exact ha) (by rw [rf]; exact hb)

/-- After filling all missing values (no limits) with a learner that leaves none, none is left. -/
theorem C72_none_left {learn : Obj V → Res (Obj V)} {missing : V → Bool} {nan : V} {o o' : Obj V} (h : o.WF)
    (hlearn : ∀ t r, learn t = .ok r → ∀ i j x, r.elem? i j = some x → missing x = false)
    (hr : learnFill learn missing nan (.func missing) o .all .all = (o', .ok ())) :
    ∀ i j x, o'.elem? i j = some x → missing x = false := by
  obtain ⟨mask, t, filled, wp, wf, mm, _, hl, d1, d2, w', ep, ef, he⟩ := C72_fill (arg := .func missing) h trivial hr
  intro i j x hx
  have hij : i < o.pts.len ∧ j < o.fts.len := by
    by_contra hc
    rw [elem_none w' (by rw [ep, ef]; exact hc)] at hx
    simp at hx
  have hwp : ∀ i, wp i = true := by
    rcases d1 with ⟨_, h⟩ | ⟨l, idx, h, _⟩
    · exact h
    · simp [Limit.idents] at h
  have hwf : ∀ i, wf i = true := by
    rcases d2 with ⟨_, h⟩ | ⟨l, idx, h, _⟩
    · exact h
    · simp [Limit.idents] at h
  rw [he i j hij.1 hij.2] at hx
  have hme : mask.elem? i j = (o.elem? i j).map missing := mm i j
  by_cases hc : mask.elem? i j = some true
  · rw [if_pos ⟨hwp i, hwf j, hc⟩] at hx
    exact hlearn t filled hl i j x hx
  · rw [if_neg (fun hh => hc hh.2.2)] at hx
    rw [hme, hx] at hc
    simpa using hc

/-! ## A learner that changes the shape -/

/-- Features a, b and c; b is entirely missing (`none`). -/
def exO : Obj (Option Nat) :=
  ⟨[[some 1, none, some 5], [some 2, none, none]], ⟨2, none⟩, ⟨3, none⟩⟩

/-- An imputer that drops features without any value (the default of scikit-learn's SimpleImputer) and
fills c. -/
def dropping (_ : Obj (Option Nat)) : Res (Obj (Option Nat)) :=
  .ok ⟨[[some 1, some 5], [some 2, some 5]], ⟨2, none⟩, ⟨2, none⟩⟩

theorem exO_wf : exO.WF where
  rows := rfl
  cols := by decide
  pts := none_ok 2
  fts := none_ok 3

/-- **C72 violated**: the shape of the learner's result is not checked.  Feature 1 gets the values the learner
computed for feature 2, then the call raises `IndexError` with `trainX` half changed. -/
theorem C72_shape_violated :
    learnFill dropping Option.isNone none (.func Option.isNone) exO .all .all =
      (⟨[[some 1, some 5, some 5], [some 2, some 5, none]], ⟨2, none⟩, ⟨3, none⟩⟩, .error .IndexError) := by
  decide +kernel

/-- Restricted to feature 1 the call even succeeds, with the values of feature 2. -/
theorem C72_shape_silent_violated :
    learnFill dropping Option.isNone none (.func Option.isNone) exO .all (.list [.int 1]) =
      (⟨[[some 1, some 5, some 5], [some 2, some 5, none]], ⟨2, none⟩, ⟨3, none⟩⟩, .ok ()) := by
  decide +kernel

/-- A learner that keeps the shape. -/
def sevens (t : Obj (Option Nat)) : Res (Obj (Option Nat)) :=
  .ok { t with data := t.data.map (·.map (fun x => if x.isNone then some 7 else x)) }

example : learnFill sevens Option.isNone none (.func Option.isNone) exO (.list [.int (-1)]) .all =
    (⟨[[some 1, none, some 5], [some 2, some 7, some 7]], ⟨2, none⟩, ⟨3, none⟩⟩, .ok ()) := by
  decide +kernel

example : learnFill sevens Option.isNone none (.func (fun x => x == some 5)) exO .all .all =
    (exO, .error .ImproperObjectAction) := by
  decide +kernel

/-- Names on `trainX`, none on the mask, nothing missing. -/
def exNamed : Obj (Option Nat) := ⟨[[some 1, some 2]], ⟨1, none⟩, ⟨2, some ⟨[("a", 0)], [some "a", none]⟩⟩⟩

example : learnFill sevens Option.isNone none (.obj ⟨[[true, false]], ⟨1, none⟩, ⟨2, none⟩⟩) exNamed .all .all =
    (exNamed, .error .ImproperObjectAction) := by
  decide +kernel

end Nimble.LearnFill
