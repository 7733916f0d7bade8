import Verif.Lemmas.Merge

/-! Helper lemmas about the names matched by `merge`. -/

namespace Nimble

/-! ## Specification -/

/-- The right indices with the same (given) name as left index `i`. -/
def nameMates (L R : List (Option String)) (i : Nat) : List Nat :=
  (List.range R.length).filter (fun j => decide ((L[i]?).join ≠ none ∧ L[i]? = R[j]?))

/-- The name of an entry of the joined axis: the left one, or the right one if there is no left
index. -/
def nameOfPair (L R : List (Option String)) : Option Nat × Option Nat → Option String
  | (some i, _) => (L[i]?).join
  | (none, some j) => (R[j]?).join
  | (none, none) => none

/-! ## Matching names -/

/-- `mL`, `mR` list the indices of the common names. -/
structure Matching (L R : List (Option String)) (mL mR : List Nat) : Prop where
  len : mL.length = mR.length
  nodupL : mL.Nodup
  nodupR : mR.Nodup
  mem : ∀ i j : Nat, (i, j) ∈ mL.zip mR ↔ ∃ s, L[i]? = some (some s) ∧ R[j]? = some (some s)

theorem lookup_pick {a : AxisSt} {t : NameTable} (ht : a.tbl = some t) {ns : List String}
    (h : ∀ s ∈ ns, s ∈ t.names.keys) :
    idxOfNames a ns = ns.map (fun s => (PyDict.get? t.names s).getD 0) := by
  unfold idxOfNames
  rw [← List.filterMap_eq_map]
  apply List.filterMap_congr
  intro s hs
  have := PyDict.mem_keys.1 (h s hs)
  obtain ⟨v, hv⟩ := Option.isSome_iff_exists.1 this
  simp [ht, hv]

theorem matchingNames_eq {a b : AxisSt} {ta tb : NameTable} (hta : a.tbl = some ta)
    (htb : b.tbl = some tb) :
    matchingNames a b = ta.names.keys.filter (fun s => PyDict.has tb.names s) := by
  unfold matchingNames; rw [hta, htb]

theorem matching_of {a b : AxisSt} (ha : a.Ok) (hb : b.Ok) {ta tb : NameTable}
    (hta : a.tbl = some ta) (htb : b.tbl = some tb) :
    Matching a.getNames b.getNames (idxOfNames a (matchingNames a b))
      (idxOfNames b (matchingNames a b)) := by
  have ha := ha ta hta
  have hb := hb tb htb
  rw [AxisSt.getNames_of_some hta, AxisSt.getNames_of_some htb]
  have hm := matchingNames_eq hta htb
  have hsub : ∀ s ∈ matchingNames a b, s ∈ ta.names.keys ∧ s ∈ tb.names.keys := by
    intro s hs
    rw [hm, List.mem_filter] at hs
    exact ⟨hs.1, PyDict.has_iff.1 hs.2⟩
  have hnd : (matchingNames a b).Nodup := by rw [hm]; exact ha.nodup.filter _
  rw [lookup_pick hta (fun s hs => (hsub s hs).1), lookup_pick htb (fun s hs => (hsub s hs).2)]
  have hga : ∀ s ∈ matchingNames a b, PyDict.get? ta.names s = some ((PyDict.get? ta.names s).getD 0) := by
    intro s hs
    obtain ⟨v, hv⟩ := Option.isSome_iff_exists.1 (PyDict.mem_keys.1 (hsub s hs).1)
    simp [hv]
  have hgb : ∀ s ∈ matchingNames a b, PyDict.get? tb.names s = some ((PyDict.get? tb.names s).getD 0) := by
    intro s hs
    obtain ⟨v, hv⟩ := Option.isSome_iff_exists.1 (PyDict.mem_keys.1 (hsub s hs).2)
    simp [hv]
  refine ⟨by simp, ?_, ?_, ?_⟩
  · apply List.Nodup.map_on _ hnd
    intro x hx y hy e
    have h1 := (ha.iff _ _).2 (hga x hx)
    have h2 := (ha.iff _ _).2 (hga y hy)
    rw [e, h2] at h1
    simpa using h1.symm
  · apply List.Nodup.map_on _ hnd
    intro x hx y hy e
    have h1 := (hb.iff _ _).2 (hgb x hx)
    have h2 := (hb.iff _ _).2 (hgb y hy)
    rw [e, h2] at h1
    simpa using h1.symm
  · intro i j
    rw [List.zip_map', List.mem_map]
    constructor
    · rintro ⟨s, hs, e⟩
      simp only [Prod.mk.injEq] at e
      refine ⟨s, ?_, ?_⟩
      · rw [ha.iff, hga s hs, e.1]
      · rw [hb.iff, hgb s hs, e.2]
    · rintro ⟨s, h1, h2⟩
      rw [ha.iff] at h1
      rw [hb.iff] at h2
      refine ⟨s, ?_, by simp [h1, h2]⟩
      rw [hm, List.mem_filter]
      exact ⟨PyDict.mem_keys.2 (by simp [h1]), PyDict.has_iff.2 (PyDict.mem_keys.2 (by simp [h2]))⟩

namespace Matching
variable {L R : List (Option String)} {mL mR : List Nat}

theorem mate_iff (h : Matching L R mL mR) (i j : Nat) :
    mateIn mL mR i = some j ↔ ∃ s, L[i]? = some (some s) ∧ R[j]? = some (some s) := by
  rw [← h.mem, ← find?_zip_mate mL mR h.len i]
  constructor
  · intro e
    obtain ⟨p, hp, rfl⟩ := Option.map_eq_some_iff.1 e
    have h1 := List.mem_of_find?_eq_some hp
    have h2 := List.find?_some hp
    have h2 : p.1 = i := by simpa using h2
    rw [← h2]; exact h1
  · intro hm
    cases hf : (mL.zip mR).find? (fun p => p.1 == i) with
    | none =>
      rw [List.find?_eq_none] at hf
      exact absurd (hf _ hm) (by simp)
    | some p =>
      have h1 := List.mem_of_find?_eq_some hf
      have h2 : p.1 = i := by simpa using List.find?_some hf
      have hnd : ((mL.zip mR).map Prod.fst).Nodup := by
        rw [List.map_fst_zip (by have := h.len; omega)]; exact h.nodupL
      have := List.inj_on_of_nodup_map hnd h1 hm (by simpa using h2)
      rw [this]; rfl

theorem mem_left (h : Matching L R mL mR) (i : Nat) : i ∈ mL ↔ ∃ j, mateIn mL mR i = some j := by
  unfold mateIn
  by_cases hi : i ∈ mL <;> simp [hi]

theorem mem_right (h : Matching L R mL mR) (j : Nat) : j ∈ mR ↔ ∃ i, mateIn mL mR i = some j := by
  constructor
  · intro hj
    obtain ⟨k, hk, rfl⟩ := List.getElem_of_mem hj
    have hk' : k < mL.length := by rw [h.len]; exact hk
    refine ⟨mL[k], ?_⟩
    rw [h.mate_iff, ← h.mem]
    rw [List.mem_iff_getElem]
    exact ⟨k, by rw [List.length_zip]; omega, by simp⟩
  · rintro ⟨i, hi⟩
    rw [h.mate_iff, ← h.mem] at hi
    exact (List.of_mem_zip hi).2

theorem ltL (h : Matching L R mL mR) {i : Nat} (hi : i ∈ mL) : i < L.length := by
  obtain ⟨j, hj⟩ := (h.mem_left i).1 hi
  obtain ⟨s, hs, _⟩ := (h.mate_iff i j).1 hj
  exact (List.getElem?_eq_some_iff.1 hs).1

theorem ltR (h : Matching L R mL mR) {j : Nat} (hj : j ∈ mR) : j < R.length := by
  obtain ⟨i, hi⟩ := (h.mem_right j).1 hj
  obtain ⟨s, _, hs⟩ := (h.mate_iff i j).1 hi
  exact (List.getElem?_eq_some_iff.1 hs).1

theorem nameMates_eq (h : Matching L R mL mR) (i : Nat) :
    nameMates L R i = (mateIn mL mR i).toList := by
  have hp : nameMates L R i
      = (List.range R.length).filter (fun j => decide (mateIn mL mR i = some j)) := by
    unfold nameMates
    apply List.filter_congr
    intro j hj
    have hj : j < R.length := by simpa using hj
    rw [decide_eq_decide, h.mate_iff]
    constructor
    · rintro ⟨h1, h2⟩
      obtain ⟨s, hs⟩ := Option.ne_none_iff_exists'.1 h1
      have hs : L[i]? = some (some s) := by
        cases hL : L[i]? with
        | none => rw [hL] at hs; simp at hs
        | some x => rw [hL] at hs; simp at hs; rw [hs]
      exact ⟨s, hs, by rw [← h2, hs]⟩
    · rintro ⟨s, h1, h2⟩
      exact ⟨by simp [h1], by rw [h1, h2]⟩
  rw [hp]
  cases hm : mateIn mL mR i with
  | none => simp
  | some j =>
    have hj : j < R.length := h.ltR ((h.mem_right j).2 ⟨i, hm⟩)
    have : (fun k => decide (some j = some k)) = (fun k => k == j) := by
      funext k
      by_cases e : k = j
      · simp [e]
      · have e' : j ≠ k := fun hh => e hh.symm
        simp [e, e']
    rw [this, List.filter_beq, List.count_eq_one_of_mem List.nodup_range (by simpa using hj)]
    rfl

theorem right_alone (h : Matching L R mL mR) (j : Nat) :
    (∀ i ∈ List.range L.length, j ∉ nameMates L R i) ↔ j ∉ mR := by
  rw [h.mem_right]
  constructor
  · rintro hh ⟨i, hi⟩
    have : i < L.length := h.ltL ((h.mem_left i).2 ⟨j, hi⟩)
    exact hh i (by simpa using this) (by rw [h.nameMates_eq, hi]; simp)
  · intro hh i _ hm
    rw [h.nameMates_eq] at hm
    exact hh ⟨i, by simpa using hm⟩

theorem joined_head (h : Matching L R mL mR) (mode : MergeMode) (hm : mode ≠ .intersection) :
    (List.range L.length).flatMap (fun i =>
      if nameMates L R i = [] then (if mode = .intersection then [] else [(some i, none)])
      else (nameMates L R i).map (fun j => (some i, some j)))
    = (List.range L.length).map (fun i => (some i, mateIn mL mR i)) := by
  rw [← List.flatMap_pure_eq_map]
  apply List.flatMap_congr
  intro i _
  rw [h.nameMates_eq, if_neg hm]
  cases hm : mateIn mL mR i <;> simp [hm]

theorem joined_left (h : Matching L R mL mR) :
    joined .left L.length R.length (nameMates L R)
      = (List.range L.length).map (fun i => (some i, mateIn mL mR i)) := by
  unfold joined
  rw [h.joined_head .left (by simp)]
  simp

theorem joined_union (h : Matching L R mL mR) :
    joined .union L.length R.length (nameMates L R) = colsOf L.length mL mR R.length := by
  unfold joined colsOf
  rw [h.joined_head .union (by simp), if_pos rfl]
  congr 2
  apply List.filter_congr
  intro j _
  rw [decide_eq_decide]
  exact h.right_alone j

theorem joined_intersection (h : Matching L R mL mR) :
    joined .intersection L.length R.length (nameMates L R)
      = ((List.range L.length).filter (fun i => decide (i ∈ mL))).map
          (fun i => (some i, mateIn mL mR i)) := by
  unfold joined
  simp only [if_pos, reduceCtorEq, if_false, List.append_nil]
  induction List.range L.length with
  | nil => rfl
  | cons i l ih =>
    rw [List.flatMap_cons, ih, h.nameMates_eq, List.filter_cons]
    by_cases hi : i ∈ mL
    · obtain ⟨j, hj⟩ := (h.mem_left i).1 hi
      simp [hi, hj]
    · have : mateIn mL mR i = none := by
        cases hm : mateIn mL mR i with
        | none => rfl
        | some j => exact absurd ((h.mem_left i).2 ⟨j, hm⟩) hi
      simp [hi, this]

/-! ### Rows of the joined object from the prepared rows -/

variable {V : Type} [DecidableEq V]

theorem idxOf_lt (h : Matching L R mL mR) {i : Nat} (hi : i ∈ mL) : mL.idxOf i < mR.length := by
  rw [← h.len]; exact List.idxOf_lt_length_of_mem hi

theorem outRow_left (h : Matching L R mL mR) (nan : V) (l r : Option (List V))
    (hr : ∀ q, r = some q → q.length = R.length) :
    outRow nan (colsOf L.length mL (List.range mR.length) mR.length) l
        (r.map (fun q => pick q mR))
      = outRow nan (joined .left L.length R.length (nameMates L R)) l r := by
  rw [h.joined_left]
  unfold colsOf
  have he : (List.range mR.length).filter (fun j => decide (j ∉ List.range mR.length)) = [] := by
    rw [List.filter_eq_nil_iff]
    intro j hj
    simp only [decide_eq_true_eq, not_not]
    exact hj
  rw [he, List.map_nil, List.append_nil]
  unfold outRow
  rw [List.map_map, List.map_map]
  apply List.map_congr_left
  intro i _
  simp only [Function.comp]
  congr 1
  cases r with
  | none => rfl
  | some q =>
    have hq := hr q rfl
    simp only [Option.map_some, cellOf, Option.bind_some]
    unfold mateIn
    by_cases hi : i ∈ mL
    · rw [if_pos hi, if_pos hi]
      have hk := h.idxOf_lt hi
      simp only [Option.bind_some, List.getD_eq_getElem?_getD, List.getElem?_range hk, Option.getD_some]
      rw [getElem?_pick (fun j hj => by rw [hq]; exact h.ltR hj), List.getElem?_eq_getElem hk]
      rfl
    · rw [if_neg hi, if_neg hi]
      rfl

theorem outRow_intersection (h : Matching L R mL mR) (nan : V) (l r : Option (List V))
    (hasc : mL = (List.range L.length).filter (fun i => decide (i ∈ mL)))
    (hl : ∀ q, l = some q → q.length = L.length)
    (hr : ∀ q, r = some q → q.length = R.length) :
    outRow nan (colsOf mL.length (List.range mL.length) (List.range mL.length) mL.length)
        (l.map (fun q => pick q mL)) (r.map (fun q => pick q mR))
      = outRow nan (joined .intersection L.length R.length (nameMates L R)) l r := by
  rw [h.joined_intersection, ← hasc]
  unfold colsOf
  have he : (List.range mL.length).filter (fun j => decide (j ∉ List.range mL.length)) = [] := by
    rw [List.filter_eq_nil_iff]
    intro j hj
    simp only [decide_eq_true_eq, not_not]
    exact hj
  rw [he, List.map_nil, List.append_nil]
  unfold outRow
  rw [List.map_map, List.map_map]
  apply List.ext_getElem (by simp)
  intro k h1 h2
  have hk : k < mL.length := by simpa using h1
  have hk' : k < mR.length := by rw [← h.len]; exact hk
  simp only [List.getElem_map, List.getElem_range, Function.comp]
  have hmate : mateIn mL mR mL[k] = some mR[k] := by
    rw [h.mate_iff, ← h.mem, List.mem_iff_getElem]
    exact ⟨k, by rw [List.length_zip]; omega, by simp⟩
  have hmate' : mateIn (List.range mL.length) (List.range mL.length) k = some k := by
    unfold mateIn
    have h0 : (List.range mL.length).idxOf k = k := by
      have := List.Nodup.idxOf_getElem (List.nodup_range (n := mL.length)) k (by simpa using hk)
      simpa using this
    rw [if_pos (by simpa using hk), h0]
    simp [List.getD_eq_getElem?_getD, hk]
  rw [hmate, hmate']
  congr 1
  · cases l with
    | none => rfl
    | some q =>
      have hq := hl q rfl
      simp only [Option.map_some, cellOf, Option.bind_some]
      rw [getElem?_pick (fun j hj => by rw [hq]; exact h.ltL hj), List.getElem?_eq_getElem hk]
      rfl
  · cases r with
    | none => rfl
    | some q =>
      have hq := hr q rfl
      simp only [Option.map_some, cellOf, Option.bind_some]
      rw [getElem?_pick (fun j hj => by rw [hq]; exact h.ltR hj), List.getElem?_eq_getElem hk']
      rfl

/-! ### Names -/

theorem names_left (h : Matching L R mL mR) :
    (joined .left L.length R.length (nameMates L R)).map (nameOfPair L R) = L := by
  rw [h.joined_left, List.map_map]
  apply List.ext_getElem (by simp)
  intro i h1 h2
  simp [nameOfPair, h2]

theorem names_union (h : Matching L R mL mR) (f : Option String → Bool)
    (hf : ∀ j x, R[j]? = some x → (f x = true ↔ j ∉ mR)) :
    (joined .union L.length R.length (nameMates L R)).map (nameOfPair L R) = L ++ R.filter f := by
  rw [h.joined_union]
  unfold colsOf
  rw [List.map_append]
  congr 1
  · rw [List.map_map]
    apply List.ext_getElem (by simp)
    intro i h1 h2
    simp [nameOfPair, h2]
  · rw [filter_range R none f, List.map_map]
    have : (List.range R.length).filter (fun i => f (R.getD i none))
        = (List.range R.length).filter (fun j => decide (j ∉ mR)) := by
      apply List.filter_congr
      intro j hj
      have hj : j < R.length := by simpa using hj
      have := hf j _ (getD_eq_some (d := none) hj)
      by_cases hm : j ∈ mR
      · have : f (R.getD j none) = false := by
          cases hh : f (R.getD j none) with
          | false => rfl
          | true => exact absurd hm (this.1 hh)
        rw [this]; simp [hm]
      · rw [this.2 hm]; simp [hm]
    rw [this]
    apply List.map_congr_left
    intro j hj
    have hj : j < R.length := by simpa using (List.mem_filter.1 hj).1
    simp [nameOfPair, hj]

theorem names_intersection (h : Matching L R mL mR) (f : Option String → Bool)
    (hf : ∀ i x, L[i]? = some x → (f x = true ↔ i ∈ mL)) :
    (joined .intersection L.length R.length (nameMates L R)).map (nameOfPair L R) = L.filter f := by
  rw [h.joined_intersection, filter_range L none f, List.map_map]
  have : (List.range L.length).filter (fun i => f (L.getD i none))
      = (List.range L.length).filter (fun i => decide (i ∈ mL)) := by
    apply List.filter_congr
    intro j hj
    have hj : j < L.length := by simpa using hj
    have := hf j _ (getD_eq_some (d := none) hj)
    by_cases hm : j ∈ mL
    · rw [this.2 hm]; simp [hm]
    · have : f (L.getD j none) = false := by
        cases hh : f (L.getD j none) with
        | false => rfl
        | true => exact absurd (this.1 hh) hm
      rw [this]; simp [hm]
  rw [this]
  apply List.map_congr_left
  intro j hj
  have hj : j < L.length := by simpa using (List.mem_filter.1 hj).1
  simp [nameOfPair, hj]

end Matching

end Nimble
