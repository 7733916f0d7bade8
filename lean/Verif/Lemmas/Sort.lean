import Verif.Lemmas.Permute

/-! Helper lemmas: stable sorting. -/

namespace Nimble

/-- Two different members of a list occur in it in one order or the other. -/
theorem pair_sublist_or {α : Type} {l : List α} {x y : α} (hx : x ∈ l) (hy : y ∈ l) (hne : x ≠ y) :
    [x, y].Sublist l ∨ [y, x].Sublist l := by
  induction l with
  | nil => simp at hx
  | cons z l ih =>
    rcases List.mem_cons.1 hx with rfl | hx'
    · rcases List.mem_cons.1 hy with rfl | hy'
      · exact absurd rfl hne
      · exact Or.inl (List.Sublist.cons_cons _ (List.singleton_sublist.2 hy'))
    · rcases List.mem_cons.1 hy with rfl | hy'
      · exact Or.inr (List.Sublist.cons_cons _ (List.singleton_sublist.2 hx'))
      · rcases ih hx' hy' with h | h
        · exact Or.inl (h.cons _)
        · exact Or.inr (h.cons _)

/-- In a duplicate-free list a pair occurs in one order only. -/
theorem nodup_pair_antisymm {α : Type} {l : List α} (hn : l.Nodup) {x y : α}
    (h1 : [x, y].Sublist l) (h2 : [y, x].Sublist l) : False := by
  induction l with
  | nil => simp at h1
  | cons z l ih =>
    rw [List.nodup_cons] at hn
    cases h1 with
    | cons _ h1 =>
      cases h2 with
      | cons _ h2 => exact ih hn.2 h1 h2
      | cons_cons _ h2 => exact hn.1 (h1.subset (by simp))
    | cons_cons _ h1 =>
      cases h2 with
      | cons _ h2 => exact hn.1 (h2.subset (by simp))
      | cons_cons _ h2 => exact hn.1 (List.singleton_sublist.1 h1)

theorem reduceOption_map_some {α : Type} (l : List α) : (l.map some).reduceOption = l := by
  induction l with
  | nil => rfl
  | cons x l ih => rw [List.map_cons, List.reduceOption_cons_of_some, ih]

variable {V : Type}

/-- A comparison usable for sorting. -/
structure TotalOrd (le : V → V → Bool) : Prop where
  trans : ∀ a b c, le a b = true → le b c = true → le a c = true
  total : ∀ a b, (le a b || le b a) = true

/-- The comparison with the direction applied. -/
def dirLe (le : V → V → Bool) (reverse : Bool) (x y : V) : Bool := if reverse then le y x else le x y

theorem TotalOrd.dir {le : V → V → Bool} (h : TotalOrd le) (reverse : Bool) :
    TotalOrd (dirLe le reverse) := by
  cases reverse with
  | false => exact h
  | true =>
    refine ⟨fun a b c h1 h2 => ?_, fun a b => ?_⟩
    · simp only [dirLe, if_true] at *; exact h.trans _ _ _ h2 h1
    · simp only [dirLe, if_true]; exact h.total b a

theorem zipIdx_nodup (l : List V) : (l.zipIdx).Nodup := by
  apply List.Nodup.of_map Prod.snd
  rw [List.zipIdx_map_snd]
  exact List.nodup_range'

theorem zipIdx_pairwise (l : List V) : l.zipIdx.Pairwise (fun p q => p.2 < q.2) := by
  rw [← List.pairwise_map (f := Prod.snd), List.zipIdx_map_snd]
  exact List.pairwise_lt_range'

/-- The sorting order of a list of values: a permutation of the indices, sorted by value, equal
values in original order. -/
theorem sortOrder_spec {le : V → V → Bool} (hle : TotalOrd le) (reverse : Bool) (vals : List V) :
    (Obj.sortOrder le reverse vals).Perm (List.range vals.length) ∧
    (Obj.sortOrder le reverse vals).Pairwise (fun i j => ∀ x y, vals[i]? = some x → vals[j]? = some y →
      dirLe le reverse x y = true ∧ (dirLe le reverse y x = true → i < j)) := by
  have hd := hle.dir reverse
  unfold Obj.sortOrder
  have hle' : (fun (x y : V × Nat) => if reverse = true then le y.1 x.1 else le x.1 y.1) =
      fun (x y : V × Nat) => dirLe le reverse x.1 y.1 := rfl
  rw [hle']
  have hperm := List.mergeSort_perm vals.zipIdx (fun x y => dirLe le reverse x.1 y.1)
  constructor
  · refine (hperm.map Prod.snd).trans ?_
    rw [List.zipIdx_map_snd, List.range_eq_range']
  · rw [List.pairwise_map]
    have hs := List.pairwise_mergeSort (le := fun (x y : V × Nat) => dirLe le reverse x.1 y.1)
      (fun a b c => hd.trans a.1 b.1 c.1) (fun a b => hd.total a.1 b.1) vals.zipIdx
    rw [List.pairwise_iff_forall_sublist] at hs ⊢
    intro p q hpq x y hx hy
    have hmp : p ∈ vals.zipIdx := hperm.mem_iff.1 (hpq.subset (by simp))
    have hmq : q ∈ vals.zipIdx := hperm.mem_iff.1 (hpq.subset (by simp))
    have e1 : vals[p.2]? = some p.1 := (List.mem_zipIdx_iff_getElem? (x := p) (l := vals)).1 hmp
    have e2 : vals[q.2]? = some q.1 := (List.mem_zipIdx_iff_getElem? (x := q) (l := vals)).1 hmq
    rw [hx] at e1; rw [hy] at e2
    cases e1; cases e2
    refine ⟨hs hpq, fun hback => ?_⟩
    have hne : p ≠ q := by
      rintro rfl
      have hnd : (vals.zipIdx.mergeSort (fun x y => dirLe le reverse x.1 y.1)).Nodup :=
        hperm.nodup_iff.2 (zipIdx_nodup vals)
      have := hnd.sublist hpq
      simp at this
    by_contra hlt
    rcases pair_sublist_or hmp hmq hne with h | h
    · have := List.pairwise_iff_forall_sublist.1 (zipIdx_pairwise vals) h
      exact hlt this
    · have h2 := List.pair_sublist_mergeSort (le := fun (x y : V × Nat) => dirLe le reverse x.1 y.1)
        (fun a b c => hd.trans a.1 b.1 c.1) (fun a b => hd.total a.1 b.1) (l := vals.zipIdx) hback h
      exact nodup_pair_antisymm (hperm.nodup_iff.2 (zipIdx_nodup vals)) hpq h2

namespace Obj

/-- Selecting along an axis picks in every vector of the other axis. -/
theorem vector_off_select {o r : Obj V} {ax : Ax} {l : List Nat} (h : o.WF)
    (hb : ∀ i ∈ l, i < (o.axis ax).len) (hd : r.data = selData ax o.data l) {j : Nat}
    (hj : j < (o.axis ax.off).len) :
    r.vector ax.off j = pick (o.vector ax.off j) l := by
  cases ax with
  | point =>
    show r.data.filterMap (·[j]?) = pick (o.data.filterMap (·[j]?)) l
    rw [hd]
    apply List.ext_getElem?
    intro k
    have hc := h.col_bound hj
    rw [getElem?_pick (by rw [length_filterMap_col hc, h.rows]; exact hb)]
    rw [getElem?_filterMap_col]
    · show ((pick o.data l)[k]?).bind _ = _
      rw [getElem?_pick (by rw [h.rows]; exact hb)]
      cases l[k]? with
      | none => rfl
      | some i => simp only [Option.bind_some]; rw [getElem?_filterMap_col hc]
    · intro q hq; rw [selData_cols_point h q hq]; exact hj
  | feature =>
    show (r.data[j]?).getD [] = pick ((o.data[j]?).getD []) l
    rw [hd]
    simp only [selData, List.getElem?_map]
    have : j < o.data.length := by rw [h.rows]; exact hj
    simp [this]

end Obj
end Nimble
