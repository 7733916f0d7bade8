import Verif.Lemmas.Targets
import Verif.Model.Insert

/-! Helper lemmas: permuting. -/

namespace Nimble

/-- A non-negative accepted integer is its own index. -/
theorem AxisSt.getIndex_nonneg_int {a : AxisSt} {i : Nat} {j : Nat}
    (h : a.getIndex (.int (i : Int)) = .ok (j : Int)) : i = j := by
  simp only [AxisSt.getIndex] at h
  split at h
  · simp at h
  · have hn : ¬ ((i : Int) < 0) := by omega
    simp only [hn, if_false] at h
    split at h
    · simp at h
    · simp only [Except.ok.injEq] at h; omega

/-- What an identifier denotes depends on the length and the listed names only. -/
theorem getIndex_congr {a b : AxisSt} (ha : a.Ok) (hb : b.Ok) (hl : a.len = b.len)
    (hn : a.getNames = b.getNames) (id : Ident) (i : Nat) :
    a.getIndex id = .ok (i : Int) ↔ b.getIndex id = .ok (i : Int) := by
  cases id with
  | int k => simp only [AxisSt.getIndex, hl]
  | str s => rw [← ha.getName_iff, ← hb.getName_iff, hn]
  | flt q => simp [AxisSt.getIndex, hl]

namespace Obj
variable {V : Type}

theorem perm_range_of_nodup {l : List Nat} {n : Nat} (hn : l.Nodup) (hb : ∀ i ∈ l, i < n)
    (hl : l.length = n) : l.Perm (List.range n) := by
  have h1 : l.Subperm (List.range n) := hn.subperm (fun i hi => List.mem_range.2 (hb i hi))
  exact h1.perm_of_length_le (by simp [hl])

theorem le_one_order {l : List Nat} {n : Nat} (hp : l.Perm (List.range n)) (h1 : n ≤ 1) :
    l = List.range n := by
  have : n = 0 ∨ n = 1 := by omega
  rcases this with rfl | rfl
  · simpa using hp
  · simpa [List.range_succ] using hp

theorem selData_range {o : Obj V} (h : o.WF) (ax : Ax) :
    selData ax o.data (List.range (o.axis ax).len) = o.data := by
  cases ax with
  | point => exact pick_range_of_eq _ h.rows.symm
  | feature =>
    show o.data.map (fun r => pick r (List.range o.fts.len)) = o.data
    rw [List.map_congr_left (g := id)]
    · simp
    · intro r hr; exact pick_range_of_eq _ (h.cols r hr).symm

theorem perm_bound {l : List Nat} {n : Nat} (hp : l.Perm (List.range n)) : ∀ i ∈ l, i < n := by
  intro i hi; exact List.mem_range.1 (hp.mem_iff.1 hi)

theorem perm_nodup {l : List Nat} {n : Nat} (hp : l.Perm (List.range n)) : l.Nodup :=
  hp.nodup_iff.2 List.nodup_range

/-- Applying a permutation of the indices succeeds and selects along it. -/
theorem applyOrder_spec {o : Obj V} (h : o.WF) (ax : Ax) {l : List Nat}
    (hp : l.Perm (List.range (o.axis ax).len)) :
    ∃ r, o.applyOrder ax l = .ok r ∧ SelectedSpec o r ax l := by
  have hb := perm_bound hp
  have hn := perm_nodup hp
  have hlen : l.length = (o.axis ax).len := by simpa using hp.length_eq
  unfold applyOrder
  split
  · next h1 =>
    have := le_one_order hp h1
    refine ⟨o, rfl, ⟨h, ?_, hlen.symm, ?_, rfl, rfl, rfl, rfl⟩⟩
    · rw [this, selData_range h]
    · rw [this, pick_range_of_eq _ (h.axisOk ax).length_getNames.symm]
  · -- the off axis and data part
    have hdata : (selData ax o.data l).length = o.pts.len := by
      cases ax with
      | point => rw [length_selData_point h hb]; exact hlen
      | feature => simp [selData, h.rows]
    have hcols : ∀ r ∈ selData ax o.data l, r.length = o.fts.len := by
      cases ax with
      | point => exact selData_cols_point h
      | feature =>
        intro r hr; rw [selData_cols_feature h hb r hr]; exact hlen
    cases ht : (o.axis ax).tbl with
    | none =>
      refine ⟨_, rfl, ?_⟩
      have hnames : (o.axis ax).getNames = pick (o.axis ax).getNames l := by
        simp only [AxisSt.getNames, ht]
        symm
        rw [List.eq_replicate_iff]
        refine ⟨by rw [length_pick (by simpa using hb)]; exact hlen, ?_⟩
        intro x hx
        obtain ⟨j, _, he⟩ := mem_pick.1 hx
        rw [List.getElem?_replicate] at he
        split at he <;> simp at he; exact he.symm
      cases ax with
      | point => exact ⟨⟨hdata, hcols, h.pts, h.fts⟩, rfl, hlen.symm, hnames, rfl, rfl, rfl, rfl⟩
      | feature => exact ⟨⟨hdata, hcols, h.pts, h.fts⟩, rfl, hlen.symm, hnames, rfl, rfl, rfl, rfl⟩
    | some t =>
      have hk := (h.axisOk ax) t ht
      have hl2 : (pick t.inv l).length = (o.axis ax).len := by
        rw [length_pick (by rw [hk.length_inv]; exact hb)]; exact hlen
      have hnd := reduceOption_pick_nodup hk.reduceOption_nodup hn
      simp only [setNames_list_eq, if_pos (And.intro hl2 hnd), bind, Except.bind, pure, Except.pure]
      refine ⟨_, rfl, ?_⟩
      have hok := mk_ok hl2 hnd
      have hnm : (AxisSt.mk (o.axis ax).len (some ⟨namedPairs 0 (pick t.inv l), pick t.inv l⟩)).getNames
          = pick (o.axis ax).getNames l := by
        rw [AxisSt.getNames_of_some ht]; rfl
      cases ax with
      | point => exact ⟨⟨hdata, hcols, hok, h.fts⟩, rfl, hlen.symm, hnm, rfl, rfl, by
          rw [ht]; rfl, rfl⟩
      | feature => exact ⟨⟨hdata, hcols, h.pts, hok⟩, rfl, hlen.symm, hnm, rfl, rfl, by
          rw [ht]; rfl, rfl⟩

theorem resolveNames_eq (a : AxisSt) (ss : List String) :
    resolveNames a (ss.map some) = resolveIdents a (ss.map .str) := by
  induction ss with
  | nil => rfl
  | cons s ss ih => simp only [List.map_cons, resolveNames, resolveIdents, getIndexName, ih]

theorem resolveNames_none {a : AxisSt} {l : List (Option String)} (h : none ∈ l) :
    ∃ e, resolveNames a l = .error e := by
  induction l with
  | nil => simp at h
  | cons x l ih =>
    simp only [resolveNames, bind, Except.bind]
    cases hx : getIndexName a x with
    | error e => exact ⟨e, by simp⟩
    | ok i =>
      cases x with
      | none => simp only [getIndexName] at hx; split at hx <;> simp at hx
      | some s =>
        obtain ⟨e, he⟩ := ih (by simpa using h)
        exact ⟨e, by simp [he]⟩

theorem ints_resolve {a : AxisSt} {l : List Nat} (hb : ∀ i ∈ l, i < a.len) :
    resolveIdents a (l.map (fun (k : Nat) => .int k)) = .ok l := by
  induction l with
  | nil => rfl
  | cons i l ih =>
    have hi := hb i (by simp)
    have : a.getIndex (.int (i : Int)) = .ok (i : Int) := by
      simp only [AxisSt.getIndex]
      rw [if_neg (by omega), if_neg (by omega), if_neg (by omega)]
    simp only [List.map_cons, resolveIdents, this, bind, Except.bind, pure, Except.pure,
      ih (fun j hj => hb j (by simp [hj]))]
    simp

theorem permute_ints {o : Obj V} (h : o.WF) (ax : Ax) {l : List Nat}
    (hp : l.Perm (List.range (o.axis ax).len)) :
    ∃ r, o.permute ax (l.map (fun (k : Nat) => .int k)) = .ok r ∧ SelectedSpec o r ax l := by
  obtain ⟨r, hr, hs⟩ := applyOrder_spec h ax hp
  refine ⟨r, ?_, hs⟩
  unfold permute
  simp only [ints_resolve (perm_bound hp), bind, Except.bind]
  rw [if_neg (by simpa using hp.length_eq), if_neg (by simpa using perm_nodup hp)]
  exact hr

theorem SelectedSpec.eq_of_range {o r : Obj V} {ax : Ax} (s : SelectedSpec o r ax (List.range (o.axis ax).len))
    (h : o.WF) : r.Same o := by
  have hd := s.data
  rw [selData_range h] at hd
  have hn := s.names
  rw [pick_range_of_eq _ (h.axisOk ax).length_getNames.symm] at hn
  have hl := s.len
  rw [List.length_range] at hl
  cases ax with
  | point => exact ⟨hl, s.offLen, hd, hn, s.offNames⟩
  | feature => exact ⟨s.offLen, hl, hd, s.offNames, hn⟩

theorem selData_selData {o : Obj V} (h : o.WF) (ax : Ax) {a b : List Nat}
    (ha : ∀ i ∈ a, i < (o.axis ax).len) (hb : ∀ i ∈ b, i < a.length) :
    selData ax (selData ax o.data a) b = selData ax o.data (pick a b) := by
  cases ax with
  | point => exact pick_pick (by rw [h.rows]; exact ha) hb
  | feature =>
    show List.map _ (List.map _ _) = List.map _ _
    rw [List.map_map]
    apply List.map_congr_left
    intro r hr
    exact pick_pick (by rw [h.cols r hr]; exact ha) hb

/-- Selecting twice is selecting once along the composed order. -/
theorem SelectedSpec.trans {o r q : Obj V} {ax : Ax} {a b : List Nat} (h : o.WF)
    (s1 : SelectedSpec o r ax a) (s2 : SelectedSpec r q ax b)
    (ha : ∀ i ∈ a, i < (o.axis ax).len) (hb : ∀ i ∈ b, i < a.length) :
    SelectedSpec o q ax (pick a b) := by
  refine ⟨s2.wf, ?_, ?_, ?_, by rw [s2.offLen, s1.offLen], by rw [s2.offNames, s1.offNames],
    by rw [s2.created, s1.created], by rw [s2.offCreated, s1.offCreated]⟩
  · rw [s2.data, s1.data, selData_selData h ax ha hb]
  · rw [s2.len, length_pick hb]
  · rw [s2.names, s1.names, pick_pick (by rw [(h.axisOk ax).length_getNames]; exact ha) hb]

/-- The inverse of an order. -/
def inverseOrder (l : List Nat) : List Nat := (List.range l.length).map (fun k => l.idxOf k)

theorem pick_inverseOrder {l : List Nat} (hp : l.Perm (List.range l.length)) :
    pick l (inverseOrder l) = List.range l.length ∧ (inverseOrder l).Perm (List.range l.length) := by
  have hmem : ∀ k, k < l.length → k ∈ l := fun k hk => hp.mem_iff.2 (List.mem_range.2 hk)
  have hb : ∀ i ∈ inverseOrder l, i < l.length := by
    intro i hi
    obtain ⟨k, hk, rfl⟩ := List.mem_map.1 hi
    exact List.idxOf_lt_length_of_mem (hmem k (List.mem_range.1 hk))
  have hpick : pick l (inverseOrder l) = List.range l.length := by
    apply List.ext_getElem?
    intro k
    rw [getElem?_pick hb]
    by_cases hk : k < l.length
    · have := List.getElem_idxOf (List.idxOf_lt_length_of_mem (hmem k hk))
      simp only [inverseOrder, List.getElem?_map, List.getElem?_range hk, Option.map_some,
        Option.bind_some]
      rw [List.getElem?_eq_getElem (List.idxOf_lt_length_of_mem (hmem k hk)), this]
    · simp [inverseOrder, hk]
  refine ⟨hpick, perm_range_of_nodup ?_ hb (by simp [inverseOrder])⟩
  unfold inverseOrder
  refine List.Nodup.map_on ?_ List.nodup_range
  intro x hx y hy he
  have h1 := List.getElem_idxOf (List.idxOf_lt_length_of_mem (hmem x (List.mem_range.1 hx)))
  have h2 := List.getElem_idxOf (List.idxOf_lt_length_of_mem (hmem y (List.mem_range.1 hy)))
  rw [← h1, ← h2]; congr 1

end Obj
end Nimble
