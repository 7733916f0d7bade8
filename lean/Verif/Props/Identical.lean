import Verif.Model.Identical
import Verif.Lemmas.Obj
import Verif.Lemmas.NameChecks
import Verif.Lemmas.Structural
import Verif.Spec

/-!
# C16: isIdentical is an equivalence relation
-/

namespace Nimble

/-! ## Specification -/

/-- Python's `==` between elements is symmetric and transitive; only missing values (nan) differ from
themselves, and equal values are both or neither converted to nan. -/
structure Cmp.Lawful {V : Type} (C : Cmp V) : Prop where
  symm : ∀ x y, C.eq x y = true → C.eq y x = true
  trans : ∀ x y z, C.eq x y = true → C.eq y z = true → C.eq x z = true
  self : ∀ x, C.eq x x = true ∨ C.toFloat x = some (some true)
  float : ∀ x y, C.eq x y = true → C.toFloat x = C.toFloat y

/-- Equal, or both nan (different from themselves). -/
def SameVal {V : Type} (C : Cmp V) (x y : V) : Prop :=
  C.eq x y = true ∨ (C.eq x x = false ∧ C.eq y y = false)

/-- Equal, or both converted to nan. -/
def SameMatrix {V : Type} (C : Cmp V) (x y : V) : Prop :=
  C.eq x y = true ∨ (C.toFloat x = some (some true) ∧ C.toFloat y = some (some true))

/-- SameVal shape, same names, same elements. -/
structure Identical {V : Type} (R : V → V → Prop) (o p : Obj V) : Prop where
  pLen : o.pts.len = p.pts.len
  fLen : o.fts.len = p.fts.len
  pNames : o.pts.getNames = p.pts.getNames
  fNames : o.fts.getNames = p.fts.getNames
  elems : ∀ i j x y, o.elem? i j = some x → p.elem? i j = some y → R x y

/-! ## Names -/

theorem unequalFromLeft_isEmpty (right : List (Option String)) (left : List (Option String)) (i : Nat)
    (ret : PyDict Nat (Option String × Option String)) :
    (unequalFromLeft right i left ret).isEmpty = true ↔ ret.isEmpty = true ∧
      ∀ k s, left[k]? = some (some s) → (right[i + k]?).join = some s := by
  induction left generalizing i ret with
  | nil => simp [unequalFromLeft]
  | cons l ls ih =>
    have hset : ∀ (d : PyDict Nat (Option String × Option String)) k v, (PyDict.set d k v).isEmpty = false := by
      intro d k v
      cases d with
      | nil => rfl
      | cons q d => simp only [PyDict.set]; split <;> rfl
    have hsplit : (∀ k s, (l :: ls)[k]? = some (some s) → (right[i + k]?).join = some s) ↔
        (∀ s, l = some s → (right[i]?).join = some s) ∧
        (∀ k s, ls[k]? = some (some s) → (right[(i + 1) + k]?).join = some s) := by
      constructor
      · intro h
        refine ⟨fun s hs => h 0 s (by simp [hs]), fun k s hs => ?_⟩
        have := h (k + 1) s (by simpa using hs)
        rwa [show i + (k + 1) = (i + 1) + k by omega] at this
      · rintro ⟨h1, h2⟩ k s hs
        cases k with
        | zero => exact h1 s (by simpa using hs)
        | succ k =>
          have := h2 k s (by simpa using hs)
          rwa [show (i + 1) + k = i + (k + 1) by omega] at this
    rw [hsplit]
    cases l with
    | none =>
      simp only [unequalFromLeft]
      rw [ih]
      simp
    | some s =>
      simp only [unequalFromLeft]
      cases hr : (right[i]?).join with
      | none =>
        simp only []
        rw [ih, hset]
        simp
      | some r =>
        simp only []
        rw [ih]
        by_cases hsr : s = r
        · subst hsr; simp
        · rw [if_pos hsr, hset]
          simp [Ne.symm hsr]

theorem equalNames_iff {a b : AxisSt} (ha : a.Ok) (hb : b.Ok) (hl : a.len = b.len) :
    equalNames a.getNamesNoGen b.getNamesNoGen = true ↔ a.getNames = b.getNames := by
  have hall : ∀ (l : List (Option String)) (n : Nat), l.length = n →
      (l.all Option.isNone = true ↔ l = List.replicate n none) := by
    intro l n hn
    subst hn
    rw [List.all_eq_true]
    constructor
    · intro h
      apply List.eq_replicate_iff.2
      refine ⟨rfl, fun x hx => ?_⟩
      exact Option.isNone_iff_eq_none.1 (h x hx)
    · intro h x hx
      rw [h] at hx
      rw [(List.mem_replicate.1 hx).2]; rfl
  cases hA : a.tbl with
  | none =>
    cases hB : b.tbl with
    | none => simp [AxisSt.getNamesNoGen, AxisSt.getNames, hA, hB, equalNames, hl]
    | some t =>
      have h1 := (hb t hB).length_inv
      simp only [AxisSt.getNamesNoGen, AxisSt.getNames, hA, hB, equalNames, Option.map_some, Option.map_none]
      rw [hall _ _ (h1.trans hl.symm)]
      exact ⟨Eq.symm, Eq.symm⟩
  | some s =>
    have h2 := (ha s hA).length_inv
    cases hB : b.tbl with
    | none =>
      simp only [AxisSt.getNamesNoGen, AxisSt.getNames, hA, hB, equalNames, Option.map_some, Option.map_none]
      rw [hall _ _ (h2.trans hl)]
    | some t =>
      have h1 := (hb t hB).length_inv
      simp only [AxisSt.getNamesNoGen, AxisSt.getNames, hA, hB, equalNames, Option.map_some, Option.map_none]
      rw [if_neg (by omega)]
      unfold unequalNames
      rw [unequalFromLeft_isEmpty, unequalFromLeft_isEmpty]
      simp only [Nat.zero_add]
      constructor
      · rintro ⟨⟨-, h3⟩, h4⟩
        apply List.ext_getElem?
        intro k
        cases hs : s.inv[k]? with
        | none =>
          rw [List.getElem?_eq_none_iff] at hs
          rw [List.getElem?_eq_none (by omega)]
        | some x =>
          have hk : k < s.inv.length := (List.getElem?_eq_some_iff.1 hs).1
          have ht : t.inv[k]? = some (t.inv[k]'(by omega)) := List.getElem?_eq_getElem (by omega)
          rw [ht]
          congr 1
          generalize t.inv[k]'(by omega) = y at ht
          cases x with
          | some s' =>
            have := h3 k s' hs
            rw [ht] at this
            exact this.symm
          | none =>
            cases y with
            | none => rfl
            | some t' =>
              have := h4 k t' ht
              rw [hs] at this
              cases this
      · intro he
        rw [he]
        exact ⟨⟨rfl, fun k s hs => by rw [hs]; rfl⟩, fun k s hs => by rw [hs]; rfl⟩

namespace Obj
variable {V : Type}

theorem sameHead_iff {o p : Obj V} (ho : o.WF) (hp : p.WF) :
    sameHead o p = true ↔ o.pts.len = p.pts.len ∧ o.fts.len = p.fts.len ∧
      o.pts.getNames = p.pts.getNames ∧ o.fts.getNames = p.fts.getNames := by
  unfold sameHead
  simp only [Bool.and_eq_true, decide_eq_true_eq]
  constructor
  · rintro ⟨⟨⟨h1, h2⟩, h3⟩, h4⟩
    exact ⟨h1, h2, (equalNames_iff ho.pts hp.pts h1).1 h4, (equalNames_iff ho.fts hp.fts h2).1 h3⟩
  · rintro ⟨h1, h2, h3, h4⟩
    exact ⟨⟨⟨h1, h2⟩, (equalNames_iff ho.fts hp.fts h2).2 h4⟩, (equalNames_iff ho.pts hp.pts h1).2 h3⟩

theorem differ_iff (C : Cmp V) (x y : V) : differ C x y = false ↔ SameVal C x y := by
  unfold differ SameVal
  cases C.eq x y <;> cases C.eq x x <;> cases C.eq y y <;> simp

theorem listIdentical_iff (C : Cmp V) (d e : List (List V)) :
    listIdentical C d e = true ↔ ∀ (i j : Nat) x y, ((d[i]?).bind (·[j]?)) = some x →
      ((e[i]?).bind (·[j]?)) = some y → SameVal C x y := by
  induction d generalizing e with
  | nil => simp [listIdentical]
  | cons s ss ih =>
    cases e with
    | nil => simp [listIdentical]
    | cons o os =>
      have hrow : (s.zip o).any (fun p => differ C p.1 p.2) = false ↔
          ∀ (j : Nat) x y, s[j]? = some x → o[j]? = some y → SameVal C x y := by
        rw [List.any_eq_false]
        constructor
        · intro h j x y hx hy
          have hm : (x, y) ∈ s.zip o := List.mem_of_getElem? (i := j) (by simp [List.getElem?_zip_eq_some, hx, hy])
          rw [← differ_iff]
          simpa using h _ hm
        · rintro h ⟨x, y⟩ hm
          obtain ⟨j, hj⟩ := List.mem_iff_getElem?.1 hm
          rw [List.getElem?_zip_eq_some] at hj
          have := (differ_iff C x y).2 (h j x y hj.1 hj.2)
          simp [this]
      simp only [listIdentical]
      constructor
      · intro h i j x y hx hy
        split at h
        · cases h
        · next hr =>
          have hr : (s.zip o).any (fun p => differ C p.1 p.2) = false := by simpa using hr
          cases i with
          | zero => exact hrow.1 hr j x y (by simpa using hx) (by simpa using hy)
          | succ i => exact (ih os).1 h i j x y (by simpa using hx) (by simpa using hy)
      · intro h
        have hr : (s.zip o).any (fun p => differ C p.1 p.2) = false :=
          hrow.2 (fun j x y hx hy => h 0 j x y (by simpa using hx) (by simpa using hy))
        rw [hr]
        simp only [Bool.false_eq_true, if_false]
        exact (ih os).2 (fun i j x y hx hy => h (i + 1) j x y (by simpa using hx) (by simpa using hy))

/-- **C16** (List) `isIdentical` holds exactly for objects of the same shape with the same names (no
names counting as all default names) whose elements agree everywhere, nan agreeing with nan. -/
theorem C16_isIdentical_iff (C : Cmp V) {o p : Obj V} (ho : o.WF) (hp : p.WF) :
    isIdentical C o p = true ↔ Identical (SameVal C) o p := by
  have hh := sameHead_iff ho hp
  unfold isIdentical
  constructor
  · intro h
    split at h
    · next hs =>
      obtain ⟨h1, h2, h3, h4⟩ := hh.1 hs
      exact ⟨h1, h2, h3, h4, (listIdentical_iff C _ _).1 h⟩
    · cases h
  · rintro ⟨h1, h2, h3, h4, h5⟩
    rw [if_pos (hh.2 ⟨h1, h2, h3, h4⟩)]
    exact (listIdentical_iff C _ _).2 h5

theorem elem?_of_lens {o p : Obj V} (ho : o.WF) (hp : p.WF) (h1 : o.pts.len = p.pts.len)
    (h2 : o.fts.len = p.fts.len) {i j : Nat} {x : V} (hx : o.elem? i j = some x) : ∃ y, p.elem? i j = some y := by
  unfold elem? at hx ⊢
  obtain ⟨row, hr, hx⟩ := Option.bind_eq_some_iff.1 hx
  have hi := (List.getElem?_eq_some_iff.1 hr).1
  have hj := (List.getElem?_eq_some_iff.1 hx).1
  have hl := ho.cols row (List.mem_of_getElem? hr)
  have hor := ho.rows
  obtain ⟨row', hr', -, hl'⟩ := hp.vector_point (i := i) (by omega)
  rw [hr']
  exact ⟨row'[j]'(by omega), List.getElem?_eq_getElem (by omega)⟩

theorem Identical.equivalence {R : V → V → Prop} (hR : Equivalence R) :
    (∀ {o : Obj V}, Identical R o o) ∧
    (∀ {o p : Obj V}, Identical R o p → Identical R p o) ∧
    (∀ {o p q : Obj V}, o.WF → p.WF → Identical R o p → Identical R p q → Identical R o q) := by
  refine ⟨?_, ?_, ?_⟩
  · intro o
    refine ⟨rfl, rfl, rfl, rfl, ?_⟩
    intro i j x y hx hy
    rw [hx] at hy
    cases hy
    exact hR.refl x
  · intro o p h
    exact ⟨h.pLen.symm, h.fLen.symm, h.pNames.symm, h.fNames.symm,
      fun i j x y hx hy => hR.symm (h.elems i j y x hy hx)⟩
  · intro o p q ho hp h1 h2
    refine ⟨h1.pLen.trans h2.pLen, h1.fLen.trans h2.fLen, h1.pNames.trans h2.pNames, h1.fNames.trans h2.fNames, ?_⟩
    intro i j x z hx hz
    obtain ⟨y, hy⟩ := elem?_of_lens ho hp h1.pLen h1.fLen hx
    exact hR.trans (h1.elems i j x y hx hy) (h2.elems i j y z hy hz)

theorem same_equivalence {C : Cmp V} (hC : C.Lawful) : Equivalence (SameVal C) := by
  have hself : ∀ {x y}, C.eq x y = true → C.eq x x = true :=
    fun h => hC.trans _ _ _ h (hC.symm _ _ h)
  refine ⟨?_, ?_, ?_⟩
  · intro x
    unfold SameVal
    cases C.eq x x <;> simp
  · rintro x y (h | ⟨h1, h2⟩)
    · exact Or.inl (hC.symm _ _ h)
    · exact Or.inr ⟨h2, h1⟩
  · rintro x y z (h | ⟨h1, h2⟩) (h' | ⟨h1', h2'⟩)
    · exact Or.inl (hC.trans _ _ _ h h')
    · rw [hself (hC.symm _ _ h)] at h1'; cases h1'
    · rw [hself h'] at h2; cases h2
    · exact Or.inr ⟨h1, h2'⟩

/-- **C16** (List) `isIdentical` is reflexive, symmetric and transitive. -/
theorem C16_equivalence {C : Cmp V} (hC : C.Lawful) :
    (∀ {o : Obj V}, o.WF → isIdentical C o o = true) ∧
    (∀ {o p : Obj V}, o.WF → p.WF → isIdentical C o p = isIdentical C p o) ∧
    (∀ {o p q : Obj V}, o.WF → p.WF → q.WF → isIdentical C o p = true → isIdentical C p q = true →
      isIdentical C o q = true) := by
  obtain ⟨e1, e2, e3⟩ := Identical.equivalence (same_equivalence hC)
  refine ⟨?_, ?_, ?_⟩
  · intro o ho
    exact (C16_isIdentical_iff C ho ho).2 e1
  · intro o p ho hp
    rw [Bool.eq_iff_iff, C16_isIdentical_iff C ho hp, C16_isIdentical_iff C hp ho]
    exact ⟨e2, e2⟩
  · intro o p q ho hp hq h1 h2
    exact (C16_isIdentical_iff C ho hq).2
      (e3 ho hp ((C16_isIdentical_iff C ho hp).1 h1) ((C16_isIdentical_iff C hp hq).1 h2))

/-! ## Matrix -/

theorem floats_ok (C : Cmp V) (l : List V) (hT : ∀ v ∈ l, C.toFloat v ≠ none) :
    (∃ bs, floats C l = .ok bs ∧ (bs.all id = true ↔ ∀ v ∈ l, C.toFloat v = some (some true))) ∨
    (floats C l = .error .ValueError ∧ ∃ v ∈ l, C.toFloat v ≠ some (some true)) := by
  induction l with
  | nil => exact Or.inl ⟨[], rfl, by simp⟩
  | cons v vs ih =>
    have ih := ih (fun x hx => hT x (by simp [hx]))
    cases hv : C.toFloat v with
    | none => exact absurd hv (hT v (by simp))
    | some w =>
      cases w with
      | none => exact Or.inr ⟨by simp [floats, hv], v, by simp, by simp [hv]⟩
      | some b =>
        rcases ih with ⟨bs, h1, h2⟩ | ⟨h1, x, hx, h2⟩
        · refine Or.inl ⟨b :: bs, by simp [floats, hv, h1, Except.map], ?_⟩
          simp only [List.all_cons, id_eq, Bool.and_eq_true, h2, List.mem_cons, forall_eq_or_imp, hv,
            Option.some.injEq]
        · exact Or.inr ⟨by simp [floats, hv, h1, Except.map], x, by simp [hx], h2⟩

theorem allDataIdentical_iff (C : Cmp V) (l : List (V × V))
    (hT : ∀ p ∈ l, C.toFloat p.1 ≠ none ∧ C.toFloat p.2 ≠ none) :
    ∃ b, allDataIdentical C l = .ok b ∧ (b = true ↔ ∀ p ∈ l, SameMatrix C p.1 p.2) := by
  have h1 := floats_ok C ((l.filter (fun p => !C.eq p.1 p.2)).map Prod.fst) (by
    intro v hv
    obtain ⟨p, hp, rfl⟩ := List.mem_map.1 hv
    exact (hT p (List.mem_filter.1 hp).1).1)
  have h2 := floats_ok C ((l.filter (fun p => !C.eq p.1 p.2)).map Prod.snd) (by
    intro v hv
    obtain ⟨p, hp, rfl⟩ := List.mem_map.1 hv
    exact (hT p (List.mem_filter.1 hp).1).2)
  have key : (∀ p ∈ l, SameMatrix C p.1 p.2) ↔
      (∀ v ∈ (l.filter (fun p => !C.eq p.1 p.2)).map Prod.fst, C.toFloat v = some (some true)) ∧
      (∀ v ∈ (l.filter (fun p => !C.eq p.1 p.2)).map Prod.snd, C.toFloat v = some (some true)) := by
    constructor
    · intro h
      constructor
      all_goals
        intro v hv
        obtain ⟨p, hp, rfl⟩ := List.mem_map.1 hv
        obtain ⟨hp1, hp2⟩ := List.mem_filter.1 hp
        rcases h p hp1 with h' | h'
        · simp [h'] at hp2
        · first | exact h'.1 | exact h'.2
    · rintro ⟨h3, h4⟩ p hp
      by_cases he : C.eq p.1 p.2 = true
      · exact Or.inl he
      · have hm : p ∈ l.filter (fun p => !C.eq p.1 p.2) := List.mem_filter.2 ⟨hp, by simpa using he⟩
        exact Or.inr ⟨h3 _ (List.mem_map.2 ⟨p, hm, rfl⟩), h4 _ (List.mem_map.2 ⟨p, hm, rfl⟩)⟩
  unfold allDataIdentical
  simp only []
  rcases h1 with ⟨bs, e1, e2⟩ | ⟨e1, v, hv, e2⟩
  · rcases h2 with ⟨cs, f1, f2⟩ | ⟨f1, v, hv, f2⟩
    · refine ⟨bs.all id && cs.all id, ?_, ?_⟩
      · simp only [e1, f1, bind, Except.bind, pure, Except.pure, catchValueError]
      · rw [Bool.and_eq_true, e2, f2, key]
    · refine ⟨false, ?_, ?_⟩
      · simp only [e1, f1, bind, Except.bind, catchValueError]
      · rw [key]
        exact iff_of_false (by decide) (fun h => absurd (h.2 v hv) f2)
  · refine ⟨false, ?_, ?_⟩
    · simp only [e1, bind, Except.bind, catchValueError]
    · rw [key]
      exact iff_of_false (by decide) (fun h => absurd (h.1 v hv) e2)

theorem flatten_pairs {d e : List (List V)} (hl : d.length = e.length)
    (hr : ∀ (i : Nat) (r s : List V), d[i]? = some r → e[i]? = some s → r.length = s.length) (p : V × V) :
    p ∈ d.flatten.zip e.flatten ↔ ∃ i j : Nat, (d[i]?).bind (·[j]?) = some p.1 ∧ (e[i]?).bind (·[j]?) = some p.2 := by
  induction d generalizing e with
  | nil => simp
  | cons s ss ih =>
    cases e with
    | nil => simp at hl
    | cons o os =>
      have h0 := hr 0 s o rfl rfl
      have ih := ih (e := os) (by simpa using hl) (fun i r s' h1 h2 => hr (i + 1) r s' (by simpa using h1) (by simpa using h2))
      rw [List.flatten_cons, List.flatten_cons, List.zip_append h0, List.mem_append, ih]
      constructor
      · rintro (h | ⟨i, j, h1, h2⟩)
        · obtain ⟨j, hj⟩ := List.mem_iff_getElem?.1 h
          rw [List.getElem?_zip_eq_some] at hj
          exact ⟨0, j, by simpa using hj.1, by simpa using hj.2⟩
        · exact ⟨i + 1, j, by simpa using h1, by simpa using h2⟩
      · rintro ⟨i, j, h1, h2⟩
        cases i with
        | zero =>
          refine Or.inl (List.mem_of_getElem? (i := j) ?_)
          rw [List.getElem?_zip_eq_some]
          exact ⟨by simpa using h1, by simpa using h2⟩
        | succ i => exact Or.inr ⟨i, j, by simpa using h1, by simpa using h2⟩

/-- **C16** (Matrix, DataFrame) the same for values whose conversion to a float raises no
`TypeError`; here every value converted to nan (nan, None, the string 'nan') agrees with every other
such value. -/
theorem C16_matrix_isIdentical_iff_partial (C : Cmp V) {o p : Obj V} (ho : o.WF) (hp : p.WF)
    (hT : ∀ v, C.toFloat v ≠ none) :
    ∃ b, isIdenticalMatrix C o p = .ok b ∧ (b = true ↔ Identical (SameMatrix C) o p) := by
  have hh := sameHead_iff ho hp
  unfold isIdenticalMatrix
  by_cases hs : sameHead o p = true
  · rw [if_pos hs]
    obtain ⟨h1, h2, h3, h4⟩ := hh.1 hs
    obtain ⟨b, hb, hiff⟩ := allDataIdentical_iff C (o.data.flatten.zip p.data.flatten)
      (fun q _ => ⟨hT _, hT _⟩)
    refine ⟨b, hb, hiff.trans ?_⟩
    have hmem := flatten_pairs (d := o.data) (e := p.data) (by rw [ho.rows, hp.rows, h1]) (by
      intro i r s hr hs'
      rw [ho.cols r (List.mem_of_getElem? hr), hp.cols s (List.mem_of_getElem? hs'), h2])
    constructor
    · intro h
      exact ⟨h1, h2, h3, h4, fun i j x y hx hy => h (x, y) ((hmem _).2 ⟨i, j, hx, hy⟩)⟩
    · intro h q hq
      obtain ⟨i, j, hx, hy⟩ := (hmem q).1 hq
      exact h.elems i j _ _ hx hy
  · rw [if_neg hs]
    refine ⟨false, rfl, ?_⟩
    constructor
    · intro h; cases h
    · intro h; exact absurd (hh.2 ⟨h.pLen, h.fLen, h.pNames, h.fNames⟩) hs

theorem sameMatrix_equivalence {C : Cmp V} (hC : C.Lawful) : Equivalence (SameMatrix C) := by
  refine ⟨?_, ?_, ?_⟩
  · intro x
    rcases hC.self x with h | h
    · exact Or.inl h
    · exact Or.inr ⟨h, h⟩
  · rintro x y (h | ⟨h1, h2⟩)
    · exact Or.inl (hC.symm _ _ h)
    · exact Or.inr ⟨h2, h1⟩
  · rintro x y z (h | ⟨h1, h2⟩) (h' | ⟨h1', h2'⟩)
    · exact Or.inl (hC.trans _ _ _ h h')
    · exact Or.inr ⟨(hC.float _ _ h).trans h1', h2'⟩
    · exact Or.inr ⟨h1, (hC.float _ _ h').symm.trans h2⟩
    · exact Or.inr ⟨h1, h2'⟩

/-- **C16** (Matrix, DataFrame) reflexive, symmetric and transitive, under the same restriction. -/
theorem C16_matrix_equivalence_partial {C : Cmp V} (hC : C.Lawful) (hT : ∀ v, C.toFloat v ≠ none) :
    (∀ {o : Obj V}, o.WF → isIdenticalMatrix C o o = .ok true) ∧
    (∀ {o p : Obj V}, o.WF → p.WF → isIdenticalMatrix C o p = isIdenticalMatrix C p o) ∧
    (∀ {o p q : Obj V}, o.WF → p.WF → q.WF → isIdenticalMatrix C o p = .ok true →
      isIdenticalMatrix C p q = .ok true → isIdenticalMatrix C o q = .ok true) := by
  obtain ⟨e1, e2, e3⟩ := Identical.equivalence (sameMatrix_equivalence hC)
  refine ⟨?_, ?_, ?_⟩
  · intro o ho
    obtain ⟨b, hb, hi⟩ := C16_matrix_isIdentical_iff_partial C ho ho hT
    rw [hb, hi.2 e1]
  · intro o p ho hp
    obtain ⟨b, hb, hi⟩ := C16_matrix_isIdentical_iff_partial C ho hp hT
    obtain ⟨c, hc, hj⟩ := C16_matrix_isIdentical_iff_partial C hp ho hT
    rw [hb, hc]
    congr 1
    rw [Bool.eq_iff_iff, hi, hj]
    exact ⟨e2, e2⟩
  · intro o p q ho hp hq h1 h2
    obtain ⟨b, hb, hi⟩ := C16_matrix_isIdentical_iff_partial C ho hp hT
    obtain ⟨c, hc, hj⟩ := C16_matrix_isIdentical_iff_partial C hp hq hT
    obtain ⟨d, hd, hk⟩ := C16_matrix_isIdentical_iff_partial C ho hq hT
    rw [hb] at h1; rw [hc] at h2
    cases h1; cases h2
    rw [hd, hk.2 (e3 ho hp (hi.1 rfl) (hj.1 rfl))]

/-! ## Examples and counterexamples -/

/-- Some Python values. -/
inductive PVal where
  | none
  | nan
  | num (n : Nat)
  | str (s : String)
  | date (n : Nat)
  deriving DecidableEq

/-- Their comparison and their conversion to float. -/
def pvCmp : Cmp PVal where
  eq x y := decide (x = y) && decide (x ≠ .nan)
  toFloat
    | .none => some (some true)
    | .nan => some (some true)
    | .num _ => some (some false)
    | .str s => if s = "nan" then some (some true) else some Option.none
    | .date _ => Option.none

example : pvCmp.Lawful where
  symm x y h := by
    simp only [pvCmp, Bool.and_eq_true, decide_eq_true_eq] at h ⊢
    exact ⟨h.1.symm, h.1 ▸ h.2⟩
  trans x y z h h' := by
    simp only [pvCmp, Bool.and_eq_true, decide_eq_true_eq] at h h' ⊢
    exact ⟨h.1.trans h'.1, h.2⟩
  self x := by cases x <;> simp [pvCmp]
  float x y h := by
    simp only [pvCmp, Bool.and_eq_true, decide_eq_true_eq] at h
    rw [h.1]

/-- A 1 x 2 object. -/
def pair (x y : PVal) (names : Option NameTable) : Obj PVal := ⟨[[x, y]], ⟨1, .none⟩, ⟨2, names⟩⟩

example : isIdentical pvCmp (pair .nan (.str "a") .none)
    (pair .nan (.str "a") (some ⟨[], [.none, .none]⟩)) = true := by decide
example : isIdentical pvCmp (pair .nan (.str "a") .none) (pair .nan (.str "b") .none) = false := by decide

/-- **C16 does not hold in general (missing values).** None and nan are both missing values, but a
List does not treat them as equal; a Matrix does. -/
theorem C16_missing_violated :
    isIdentical pvCmp (pair .none (.num 1) .none) (pair .nan (.num 1) .none) = false ∧
    isIdenticalMatrix pvCmp (pair .none (.num 1) .none) (pair .nan (.num 1) .none) = .ok true := by decide

/-- **C16 does not hold in general (Matrix).** `isIdentical` of two Matrix objects raises a
`TypeError` when they hold different dates; and the string 'nan' passes for a missing value. -/
theorem C16_matrix_violated :
    isIdenticalMatrix pvCmp (pair (.date 1) (.num 1) .none) (pair (.date 2) (.num 1) .none) = .error .TypeError ∧
    isIdenticalMatrix pvCmp (pair (.str "nan") (.num 1) .none) (pair .nan (.num 1) .none) = .ok true := by
  decide

end Obj
end Nimble
