import Verif.Props.SparseMore
import Verif.Model.Replace

/-!
# C18, C57: `replaceRectangle` of the `Sparse` representation
-/

namespace Nimble
namespace Sp
variable {V : Type}
namespace Coo

/-- Positions before the search result are below the value, the others not. -/
theorem lt_search_iff {A : Type} (f : A → Nat) {l : List A} (h : l.Pairwise (fun a b => f a ≤ f b))
    (x : Nat) {i : Nat} {a : A} (hi : l[i]? = some a) :
    i < searchsorted (l.map f) x ↔ f a < x := by
  obtain ⟨a1, a2⟩ := split_sorted f x l h
  have hk : searchsorted (l.map f) x = (l.filter (fun a => decide (f a < x))).length := by
    rw [searchsorted_map, a1]
  constructor
  · intro hlt
    have h1 : (l.filter (fun a => decide (f a < x)))[i]? = some a := by
      rw [a2, List.append_assoc, List.getElem?_append_left (by omega)] at hi
      exact hi
    have := (List.mem_filter.1 (List.mem_of_getElem? h1)).2
    simpa using this
  · intro hlt
    by_contra hge
    have h1 : a ∈ l.filter (fun a => decide (f a = x)) ++ l.filter (fun a => decide (x < f a)) := by
      rw [a2, List.append_assoc, List.getElem?_append_right (by omega)] at hi
      exact List.mem_of_getElem? hi
    rcases List.mem_append.1 h1 with h2 | h2
    · have := (List.mem_filter.1 h2).2
      simp only [decide_eq_true_eq] at this
      omega
    · have := (List.mem_filter.1 h2).2
      simp only [decide_eq_true_eq] at this
      omega

/-! ## The walk -/

/-- The entry lies in the rectangle (bounds inclusive). -/
def inRect (p0 f0 p1 f1 : Nat) (e : Ent V) : Bool :=
  decide (p0 ≤ e.row) && decide (e.row ≤ p1) && decide (f0 ≤ e.col) && decide (e.col ≤ f1)

/-- What the walk needs of the replacement values. -/
structure Vals.Ok (r : Vals V) (p0 f0 p1 f1 : Nat) : Prop where
  den : 0 < r.den
  below : ∀ k, k < r.stop → r.num k < (p1 + 1 - p0) * r.den
  beyond : (p1 - p0) * r.den < r.num r.stop
  col : ∀ k, k < r.stop → f0 + r.col k ≤ f1

/-- The loop invariant. -/
structure WalkInv (p0 f0 p1 f1 selfEnd k0 : Nat) (r : Vals V) (arr0 : List (Ent V)) (w : Walk V) :
    Prop where
  copy_le : w.copy ≤ w.selfIdx
  self_le : w.selfIdx ≤ selfEnd
  start_le : k0 ≤ w.selfIdx
  vals_le : w.valsIdx ≤ r.stop
  len : w.arr.length = arr0.length
  rest : w.arr.drop w.selfIdx = arr0.drop w.selfIdx
  done : (w.arr.take w.copy ++ w.add).Perm
    (arr0.take k0 ++ ((arr0.take w.selfIdx).drop k0).filter (fun e => !inRect p0 f0 p1 f1 e)
      ++ (List.range w.valsIdx).map (r.ent p0 f0))

theorem walkStep_spec {p0 f0 p1 f1 selfEnd k0 : Nat} {r : Vals V} {arr0 : List (Ent V)} {w : Walk V}
    (hp : p0 ≤ p1) (hr : r.Ok p0 f0 p1 f1) (hend : selfEnd ≤ arr0.length)
    (hrow : ∀ k e, k0 ≤ k → k < selfEnd → arr0[k]? = some e → p0 ≤ e.row ∧ e.row ≤ p1)
    (h : WalkInv p0 f0 p1 f1 selfEnd k0 r arr0 w)
    (hc : w.selfIdx < selfEnd ∨ w.valsIdx < r.stop) :
    ∃ w', walkStep p0 f0 p1 f1 selfEnd r w = .ok w' ∧ WalkInv p0 f0 p1 f1 selfEnd k0 r arr0 w' ∧
      w.selfIdx + w.valsIdx < w'.selfIdx + w'.valsIdx := by
  obtain ⟨h1, h2, h3, h4, h5, h6, h7⟩ := h
  have hget : w.arr[w.selfIdx]? = arr0[w.selfIdx]? := by
    have := congrArg (fun l => l[0]?) h6
    simpa using this
  have take_set : ∀ n : Ent V, w.copy < w.arr.length →
      (w.arr.set w.copy n).take (w.copy + 1) = w.arr.take w.copy ++ [n] := by
    intro n hn
    rw [List.take_add_one, List.take_set_of_le (Nat.le_refl _)]
    simp [hn]
  have drop_set : ∀ (n : Ent V) k, w.copy < k → (w.arr.set w.copy n).drop k = w.arr.drop k := by
    intro n k hk
    exact List.drop_set_of_lt hk
  -- one more value
  have more : ∀ {l : List (Ent V)}, (l ++ w.add).Perm (w.arr.take w.copy ++ w.add ++ [r.ent p0 f0 w.valsIdx]) →
      ∀ s, (((arr0.take s).drop k0).filter (fun e => !inRect p0 f0 p1 f1 e)
        = ((arr0.take w.selfIdx).drop k0).filter (fun e => !inRect p0 f0 p1 f1 e)) →
      (l ++ w.add).Perm (arr0.take k0 ++ ((arr0.take s).drop k0).filter (fun e => !inRect p0 f0 p1 f1 e)
        ++ (List.range (w.valsIdx + 1)).map (r.ent p0 f0)) := by
    intro l hl s hs
    rw [hs, List.range_succ, List.map_append, ← List.append_assoc]
    exact hl.trans (h7.append_right _)
  unfold walkStep
  dsimp only
  by_cases hself : w.selfIdx < selfEnd
  · -- an entry of `self` is left
    have hlt : w.selfIdx < arr0.length := by omega
    obtain ⟨e, he⟩ : ∃ e, arr0[w.selfIdx]? = some e := ⟨_, List.getElem?_eq_getElem hlt⟩
    obtain ⟨r1, r2⟩ := hrow _ e h3 hself he
    have ht : ∀ x, trueCmp p0 f0 p1 f1 selfEnd r w (some e) = x → 
        x = if ((e.row : Int) - p0) * r.den - r.num w.valsIdx ≠ 0
          then ((e.row : Int) - p0) * r.den - r.num w.valsIdx
          else (e.col : Int) - (f0 + r.col w.valsIdx) := by
      intro x hx
      rw [← hx]
      unfold trueCmp
      dsimp only
      rw [if_pos hself]
    have hseg : (arr0.take (w.selfIdx + 1)).drop k0 = (arr0.take w.selfIdx).drop k0 ++ [e] := by
      rw [List.take_add_one, he, List.drop_append_of_le_length (by simp; omega)]
      rfl
    rw [hget, he]
    generalize hx : trueCmp p0 f0 p1 f1 selfEnd r w (some e) = t
    have hx := ht t hx
    by_cases hv : w.valsIdx < r.stop
    · by_cases t1 : t > 0
      · rw [if_pos t1]
        split
        · next hcp =>
          refine ⟨_, rfl, ⟨?_, h2, h3, ?_, ?_, ?_, ?_⟩, ?_⟩
          · show w.copy + 1 ≤ w.selfIdx; omega
          · show w.valsIdx + 1 ≤ r.stop; omega
          · show (w.arr.set _ _).length = _; simpa using h5
          · show (w.arr.set _ _).drop w.selfIdx = _
            rw [drop_set _ _ hcp, h6]
          · show ((w.arr.set _ _).take (w.copy + 1) ++ w.add).Perm _
            rw [take_set _ (by omega)]
            refine more ?_ _ rfl
            rw [List.append_assoc, List.append_assoc]
            exact List.Perm.append_left _ List.perm_append_comm
          · show _ < w.selfIdx + (w.valsIdx + 1); omega
        · refine ⟨_, rfl, ⟨h1, h2, h3, ?_, h5, h6, ?_⟩, ?_⟩
          · show w.valsIdx + 1 ≤ r.stop; omega
          · show (w.arr.take w.copy ++ (w.add ++ [r.ent p0 f0 w.valsIdx])).Perm _
            rw [List.range_succ, List.map_append, ← List.append_assoc, ← List.append_assoc]
            exact h7.append_right _
          · show _ < w.selfIdx + (w.valsIdx + 1); omega
      · rw [if_neg t1]
        by_cases t2 : t < 0
        · rw [if_pos t2]
          dsimp only
          by_cases hin : e.col < f0 ∨ e.col > f1
          · rw [if_pos hin]
            have hni : inRect p0 f0 p1 f1 e = false := by
              simp only [inRect, Bool.and_eq_false_iff, decide_eq_false_iff_not]; omega
            refine ⟨_, rfl, ⟨?_, ?_, ?_, h4, ?_, ?_, ?_⟩, ?_⟩
            · show w.copy + 1 ≤ w.selfIdx + 1; omega
            · show w.selfIdx + 1 ≤ selfEnd; omega
            · show k0 ≤ w.selfIdx + 1; omega
            · show (w.arr.set _ _).length = _; simpa using h5
            · show (w.arr.set _ _).drop (w.selfIdx + 1) = _
              rw [drop_set _ _ (by omega), ← List.drop_drop, h6, List.drop_drop]
            · show ((w.arr.set _ _).take (w.copy + 1) ++ w.add).Perm _
              rw [take_set _ (by omega)]
              show (_ ++ _ : List (Ent V)).Perm (arr0.take k0 ++ List.filter _ ((arr0.take (w.selfIdx + 1)).drop k0) ++ _)
              rw [hseg, List.filter_append, List.filter_cons_of_pos (by simp [hni]), List.filter_nil]
              have : (w.arr.take w.copy ++ [e] ++ w.add).Perm (w.arr.take w.copy ++ w.add ++ [e]) := by
                rw [List.append_assoc, List.append_assoc]
                exact List.Perm.append_left _ List.perm_append_comm
              refine this.trans ((h7.append_right _).trans ?_)
              simp only [List.append_assoc]
              refine List.Perm.append_left _ (List.Perm.append_left _ List.perm_append_comm)
            · show _ < w.selfIdx + 1 + w.valsIdx; omega
          · rw [if_neg hin]
            have hni : inRect p0 f0 p1 f1 e = true := by
              simp only [inRect, Bool.and_eq_true, decide_eq_true_eq]; omega
            refine ⟨_, rfl, ⟨?_, ?_, ?_, h4, h5, ?_, ?_⟩, ?_⟩
            · show w.copy ≤ w.selfIdx + 1; omega
            · show w.selfIdx + 1 ≤ selfEnd; omega
            · show k0 ≤ w.selfIdx + 1; omega
            · show w.arr.drop (w.selfIdx + 1) = _
              rw [← List.drop_drop, h6, List.drop_drop]
            · show (_ ++ _ : List (Ent V)).Perm (arr0.take k0 ++ List.filter _ ((arr0.take (w.selfIdx + 1)).drop k0) ++ _)
              rw [hseg, List.filter_append, List.filter_cons_of_neg (by simp [hni]), List.filter_nil,
                List.append_nil]
              exact h7
            · show _ < w.selfIdx + 1 + w.valsIdx; omega
        · rw [if_neg t2]
          have t0 : t = 0 := by omega
          have hni : inRect p0 f0 p1 f1 e = true := by
            have hcv := hr.col _ hv
            rw [t0] at hx
            split at hx
            · next hne => exact absurd hx.symm hne
            · simp only [inRect, Bool.and_eq_true, decide_eq_true_eq]; omega
          refine ⟨_, rfl, ⟨?_, ?_, ?_, ?_, ?_, ?_, ?_⟩, ?_⟩
          · show w.copy + 1 ≤ w.selfIdx + 1; omega
          · show w.selfIdx + 1 ≤ selfEnd; omega
          · show k0 ≤ w.selfIdx + 1; omega
          · show w.valsIdx + 1 ≤ r.stop; omega
          · show (w.arr.set _ _).length = _; simpa using h5
          · show (w.arr.set _ _).drop (w.selfIdx + 1) = _
            rw [drop_set _ _ (by omega), ← List.drop_drop, h6, List.drop_drop]
          · show ((w.arr.set _ _).take (w.copy + 1) ++ w.add).Perm _
            rw [take_set _ (by omega)]
            refine more ?_ (w.selfIdx + 1) ?_
            · rw [List.append_assoc, List.append_assoc]
              exact List.Perm.append_left _ List.perm_append_comm
            · rw [hseg, List.filter_append, List.filter_cons_of_neg (by simp [hni]), List.filter_nil,
                List.append_nil]
          · show _ < w.selfIdx + 1 + (w.valsIdx + 1); omega
    · -- no value is left
      have hvs : w.valsIdx = r.stop := by omega
      have t2 : t < 0 := by
        have hb := hr.beyond
        rw [hvs] at hx
        have hb' : ((e.row : Int) - p0) * r.den - r.num r.stop < 0 := by
          have h8 : (e.row - p0) * r.den ≤ (p1 - p0) * r.den := Nat.mul_le_mul_right _ (by omega)
          have h9 : ((e.row : Int) - p0) * r.den = (((e.row - p0) * r.den : Nat) : Int) := by
            rw [Int.natCast_mul]
            congr 1
            omega
          rw [h9]
          omega
        rw [if_pos (by omega)] at hx
        omega
      rw [if_neg (by omega), if_pos t2]
      dsimp only
      by_cases hin : e.col < f0 ∨ e.col > f1
      · rw [if_pos hin]
        have hni : inRect p0 f0 p1 f1 e = false := by
          simp only [inRect, Bool.and_eq_false_iff, decide_eq_false_iff_not]; omega
        refine ⟨_, rfl, ⟨?_, ?_, ?_, h4, ?_, ?_, ?_⟩, ?_⟩
        · show w.copy + 1 ≤ w.selfIdx + 1; omega
        · show w.selfIdx + 1 ≤ selfEnd; omega
        · show k0 ≤ w.selfIdx + 1; omega
        · show (w.arr.set _ _).length = _; simpa using h5
        · show (w.arr.set _ _).drop (w.selfIdx + 1) = _
          rw [drop_set _ _ (by omega), ← List.drop_drop, h6, List.drop_drop]
        · show ((w.arr.set _ _).take (w.copy + 1) ++ w.add).Perm _
          rw [take_set _ (by omega)]
          show (_ ++ _ : List (Ent V)).Perm (arr0.take k0 ++ List.filter _ ((arr0.take (w.selfIdx + 1)).drop k0) ++ _)
          rw [hseg, List.filter_append, List.filter_cons_of_pos (by simp [hni]), List.filter_nil]
          have : (w.arr.take w.copy ++ [e] ++ w.add).Perm (w.arr.take w.copy ++ w.add ++ [e]) := by
            rw [List.append_assoc, List.append_assoc]
            exact List.Perm.append_left _ List.perm_append_comm
          refine this.trans ((h7.append_right _).trans ?_)
          simp only [List.append_assoc]
          refine List.Perm.append_left _ (List.Perm.append_left _ List.perm_append_comm)
        · show _ < w.selfIdx + 1 + w.valsIdx; omega
      · rw [if_neg hin]
        have hni : inRect p0 f0 p1 f1 e = true := by
          simp only [inRect, Bool.and_eq_true, decide_eq_true_eq]; omega
        refine ⟨_, rfl, ⟨?_, ?_, ?_, h4, h5, ?_, ?_⟩, ?_⟩
        · show w.copy ≤ w.selfIdx + 1; omega
        · show w.selfIdx + 1 ≤ selfEnd; omega
        · show k0 ≤ w.selfIdx + 1; omega
        · show w.arr.drop (w.selfIdx + 1) = _
          rw [← List.drop_drop, h6, List.drop_drop]
        · show (_ ++ _ : List (Ent V)).Perm (arr0.take k0 ++ List.filter _ ((arr0.take (w.selfIdx + 1)).drop k0) ++ _)
          rw [hseg, List.filter_append, List.filter_cons_of_neg (by simp [hni]), List.filter_nil,
            List.append_nil]
          exact h7
        · show _ < w.selfIdx + 1 + w.valsIdx; omega
  · -- only values are left
    have hv : w.valsIdx < r.stop := by omega
    generalize hx : trueCmp p0 f0 p1 f1 selfEnd r w w.arr[w.selfIdx]? = t
    have t1 : t > 0 := by
      rw [← hx]
      unfold trueCmp
      dsimp only
      rw [if_neg hself]
      dsimp only
      have hb := hr.below _ hv
      have h9 : (((p1 + 1 : Nat) : Int) - p0) * r.den = (((p1 + 1 - p0) * r.den : Nat) : Int) := by
        rw [Int.natCast_mul]
        congr 1
        omega
      rw [h9, if_pos (by omega)]
      omega
    rw [if_pos t1]
    split
    · next hcp =>
      refine ⟨_, rfl, ⟨?_, h2, h3, ?_, ?_, ?_, ?_⟩, ?_⟩
      · show w.copy + 1 ≤ w.selfIdx; omega
      · show w.valsIdx + 1 ≤ r.stop; omega
      · show (w.arr.set _ _).length = _; simpa using h5
      · show (w.arr.set _ _).drop w.selfIdx = _
        rw [drop_set _ _ hcp, h6]
      · show ((w.arr.set _ _).take (w.copy + 1) ++ w.add).Perm _
        rw [take_set _ (by omega)]
        refine more ?_ _ rfl
        rw [List.append_assoc, List.append_assoc]
        exact List.Perm.append_left _ List.perm_append_comm
      · show _ < w.selfIdx + (w.valsIdx + 1); omega
    · refine ⟨_, rfl, ⟨h1, h2, h3, ?_, h5, h6, ?_⟩, ?_⟩
      · show w.valsIdx + 1 ≤ r.stop; omega
      · show (w.arr.take w.copy ++ (w.add ++ [r.ent p0 f0 w.valsIdx])).Perm _
        rw [List.range_succ, List.map_append, ← List.append_assoc, ← List.append_assoc]
        exact h7.append_right _
      · show _ < w.selfIdx + (w.valsIdx + 1); omega

theorem walk_spec {p0 f0 p1 f1 selfEnd k0 : Nat} {r : Vals V} {arr0 : List (Ent V)}
    (hp : p0 ≤ p1) (hr : r.Ok p0 f0 p1 f1) (hend : selfEnd ≤ arr0.length)
    (hrow : ∀ k e, k0 ≤ k → k < selfEnd → arr0[k]? = some e → p0 ≤ e.row ∧ e.row ≤ p1)
    (fuel : Nat) (w : Walk V) (h : WalkInv p0 f0 p1 f1 selfEnd k0 r arr0 w)
    (hf : selfEnd + r.stop ≤ fuel + (w.selfIdx + w.valsIdx)) :
    ∃ w', walk p0 f0 p1 f1 selfEnd r fuel w = .ok w' ∧ WalkInv p0 f0 p1 f1 selfEnd k0 r arr0 w' ∧
      w'.selfIdx = selfEnd ∧ w'.valsIdx = r.stop := by
  have a1 := h.self_le
  have a2 := h.vals_le
  induction fuel generalizing w with
  | zero =>
    unfold walk
    rw [if_neg (by omega)]
    exact ⟨w, rfl, h, by omega, by omega⟩
  | succ fuel ih =>
    unfold walk
    by_cases hc : w.selfIdx < selfEnd ∨ w.valsIdx < r.stop
    · rw [if_pos hc]
      obtain ⟨w', e1, e2, e3⟩ := walkStep_spec hp hr hend hrow h hc
      simp only [e1]
      exact ih w' e2 (by omega) e2.self_le e2.vals_le
    · rw [if_neg hc]
      exact ⟨w, rfl, h, by omega, by omega⟩

/-- Where the walk starts. -/
theorem walkStart_spec {f0 f1 p1 selfEnd : Nat} {arr : List (Ent V)} (hend : selfEnd ≤ arr.length)
    (hpast : ∀ k e, arr[k]? = some e → (k < selfEnd ↔ e.row ≤ p1)) (fuel k : Nat)
    (hf : arr.length < fuel + k) (hk : k ≤ selfEnd) (hkl : k < arr.length) :
    ∃ k', walkStart f0 f1 p1 selfEnd arr fuel k = .ok k' ∧ k ≤ k' ∧ k' ≤ selfEnd ∧
      ∀ i e, k ≤ i → i < k' → arr[i]? = some e → e.col < f0 ∨ e.col > f1 := by
  induction fuel generalizing k with
  | zero => omega
  | succ fuel ih =>
    unfold walkStart
    obtain ⟨e, he⟩ : ∃ e, arr[k]? = some e := ⟨_, List.getElem?_eq_getElem hkl⟩
    have hke := hpast k e he
    simp only [he]
    by_cases hout : e.col < f0 ∨ e.col > f1
    · rw [if_pos hout]
      by_cases hb : e.row > p1 ∨ k = arr.length - 1
      · rw [if_pos hb]
        refine ⟨selfEnd, rfl, hk, Nat.le_refl _, ?_⟩
        intro i e' h1 h2 h3
        rcases hb with hb | hb
        · have : selfEnd ≤ k := by by_contra hh; exact absurd (hke.1 (by omega)) (by omega)
          omega
        · have : i = k := by omega
          subst this
          rw [he] at h3
          cases h3
          exact hout
      · rw [if_neg hb]
        have hks : k < selfEnd := hke.2 (by omega)
        obtain ⟨k', i1, i2, i3, i4⟩ := ih (k + 1) (by omega) (by omega) (by omega)
        refine ⟨k', i1, by omega, i3, ?_⟩
        intro i e' h1 h2 h3
        by_cases hik : i = k
        · subst hik
          rw [he] at h3
          cases h3
          exact hout
        · exact i4 i e' (by omega) h2 h3
    · rw [if_neg hout]
      exact ⟨k, rfl, Nat.le_refl _, hk, fun i e' h1 h2 => by omega⟩

/-- The entries after the replacement: those outside of the rectangle, and the new ones. -/
theorem replaceVals_perm [Zero V] {c : Coo V} (h : c.WF) {p0 f0 p1 f1 : Nat} {r : Vals V}
    (hp : p0 ≤ p1) (hp1 : p1 < c.rows) (hr : r.Ok p0 f0 p1 f1)
    (hne : c.ents = [] ∨ ∃ e ∈ c.ents, p0 ≤ e.row) :
    (c.replaceVals p0 f0 p1 f1 r).2 = .ok () ∧
    (c.replaceVals p0 f0 p1 f1 r).1.rows = c.rows ∧ (c.replaceVals p0 f0 p1 f1 r).1.cols = c.cols ∧
    (c.replaceVals p0 f0 p1 f1 r).1.sorted = none ∧ (c.replaceVals p0 f0 p1 f1 r).1.indices = none ∧
    (c.replaceVals p0 f0 p1 f1 r).1.ents.Perm
      (c.ents.filter (fun e => !inRect p0 f0 p1 f1 e) ++ (List.range r.stop).map (r.ent p0 f0)) := by
  have hs := sortInternal_spec h.toCore .point true false (fun _ => h)
  have hi := sortInternal_indices h.toCore .point false (fun _ => h)
  unfold replaceVals
  dsimp only
  obtain ⟨c1, hc1⟩ : ∃ c1, c1 = c.sortInternal .point true := ⟨_, rfl⟩
  rw [← hc1] at hs hi ⊢
  have hrows : c1.size .point = c.rows := hs.rows
  have hg : ∀ k, k ≤ c.rows → c1.indices.bind (fun l => l[k]?)
      = some (searchsorted (c1.ents.map (Ent.on .point)) k) := by
    intro k hk
    rw [hi]
    simp only [Option.bind_some, List.getElem?_map, List.getElem?_range (by omega : k < c1.size .point + 1)]
    rfl
  rw [hg p0 (by omega), hg (p1 + 1) (by omega)]
  dsimp only
  have hsort : c1.ents.Pairwise (fun a b => a.row ≤ b.row) := on_pairwise (hs.wf.sorted_ok .point hs.sorted)
  have hlt := fun x => fun {i a} => lt_search_iff (fun e : Ent V => e.row) hsort x (i := i) (a := a)
  have hle : ∀ x, searchsorted (c1.ents.map (Ent.on .point)) x ≤ c1.ents.length := by
    intro x
    unfold searchsorted
    exact (List.takeWhile_prefix _).length_le.trans (by simp)
  obtain ⟨first, hfirst⟩ : ∃ x, x = searchsorted (c1.ents.map (Ent.on .point)) p0 := ⟨_, rfl⟩
  obtain ⟨selfEnd, hself⟩ : ∃ x, x = searchsorted (c1.ents.map (Ent.on .point)) (p1 + 1) := ⟨_, rfl⟩
  have hF : ∀ i e, c1.ents[i]? = some e → (i < first ↔ e.row < p0) := by
    intro i e he; rw [hfirst]; exact hlt p0 he
  have hE : ∀ i e, c1.ents[i]? = some e → (i < selfEnd ↔ e.row ≤ p1) := by
    intro i e he; rw [hself]; exact (hlt (p1 + 1) he).trans (by omega)
  have hFl : first ≤ c1.ents.length := by rw [hfirst]; exact hle _
  have hEl : selfEnd ≤ c1.ents.length := by rw [hself]; exact hle _
  have hFE : first ≤ selfEnd := by
    by_contra hh
    obtain ⟨e, he⟩ : ∃ e, c1.ents[selfEnd]? = some e := ⟨_, List.getElem?_eq_getElem (by omega)⟩
    have a := (hF _ e he).1 (by omega)
    have b := hE _ e he
    omega
  rw [← hfirst, ← hself]
  clear hlt hle hfirst hself hg hi
  -- the start
  have hstart : ∃ k, (if c1.ents.length > 0 then walkStart f0 f1 p1 selfEnd c1.ents (c1.ents.length + 1) first
      else .ok 0) = .ok k ∧ first ≤ k ∧ k ≤ selfEnd ∧
      ∀ i e, first ≤ i → i < k → c1.ents[i]? = some e → e.col < f0 ∨ e.col > f1 := by
    by_cases hl : c1.ents.length > 0
    · rw [if_pos hl]
      refine walkStart_spec hEl hE _ _ (by omega) hFE ?_
      rcases hne with hne | ⟨e, he, hep⟩
      · have := hs.perm.length_eq
        rw [hne] at this
        simp only [List.length_nil] at this
        omega
      · obtain ⟨i, hi⟩ := List.mem_iff_getElem?.1 (hs.perm.mem_iff.2 he)
        have a := hF i e hi
        have b := (List.getElem?_eq_some_iff.1 hi).1
        omega
    · rw [if_neg hl]
      exact ⟨0, rfl, by omega, by omega, fun i e h1 h2 => by omega⟩
  obtain ⟨k0, k1, k2, k3, k4⟩ := hstart
  rw [k1]
  dsimp only
  obtain ⟨w, w1, w2, w3, w4⟩ := walk_spec (k0 := k0) (arr0 := c1.ents) hp hr hEl
    (fun k e a b he => ⟨by
      have := hF k e he
      omega, (hE k e he).1 b⟩)
    (selfEnd + r.stop) { arr := c1.ents, add := [], copy := k0, selfIdx := k0, valsIdx := 0 }
    ⟨Nat.le_refl _, k3, Nat.le_refl _, Nat.zero_le _, rfl, rfl, by simp⟩ (by show _ ≤ _ + (k0 + 0); omega)
  rw [w1]
  refine ⟨rfl, hs.rows, hs.cols, rfl, rfl, ?_⟩
  have hents : (c1.walkFinish w).ents = w.arr.take w.copy ++ w.arr.drop w.selfIdx ++ w.add := by
    unfold walkFinish
    dsimp only
    split
    · rfl
    · next hh =>
      have : w.copy = w.selfIdx := by simpa using hh
      rw [this, List.take_append_drop]
  show (c1.walkFinish w).ents.Perm _
  rw [hents, w2.rest, w3]
  have hd := w2.done
  rw [w3, w4] at hd
  have p1' : (w.arr.take w.copy ++ c1.ents.drop selfEnd ++ w.add).Perm
      (w.arr.take w.copy ++ w.add ++ c1.ents.drop selfEnd) := by
    rw [List.append_assoc, List.append_assoc]
    exact List.Perm.append_left _ List.perm_append_comm
  refine p1'.trans ((hd.append_right _).trans ?_)
  have hfil : c1.ents.filter (fun e => !inRect p0 f0 p1 f1 e)
      = c1.ents.take k0 ++ ((c1.ents.take selfEnd).drop k0).filter (fun e => !inRect p0 f0 p1 f1 e)
        ++ c1.ents.drop selfEnd := by
    have hsplit : c1.ents = c1.ents.take k0 ++ (c1.ents.take selfEnd).drop k0 ++ c1.ents.drop selfEnd := by
      have h1 : c1.ents.take k0 = (c1.ents.take selfEnd).take k0 := by
        rw [List.take_take, Nat.min_eq_left k3]
      rw [h1, List.take_append_drop, List.take_append_drop]
    conv_lhs => rw [hsplit]
    rw [List.filter_append, List.filter_append]
    congr 1
    · congr 1
      rw [List.filter_eq_self]
      intro e he
      obtain ⟨i, hi⟩ := List.mem_iff_getElem?.1 he
      rw [List.getElem?_take] at hi
      split at hi
      · next hik =>
        by_cases hif : i < first
        · have := (hF i e hi).1 hif
          simp only [inRect, Bool.not_eq_true', Bool.and_eq_false_iff, decide_eq_false_iff_not]; omega
        · have := k4 i e (by omega) hik hi
          simp only [inRect, Bool.not_eq_true', Bool.and_eq_false_iff, decide_eq_false_iff_not]; omega
      · cases hi
    · rw [List.filter_eq_self]
      intro e he
      obtain ⟨i, hi⟩ := List.mem_iff_getElem?.1 he
      rw [List.getElem?_drop] at hi
      have := hE _ e hi
      simp only [inRect, Bool.not_eq_true', Bool.and_eq_false_iff, decide_eq_false_iff_not]; omega
  refine List.Perm.trans ?_ ((hs.perm.filter _).append_right _)
  rw [hfil]
  simp only [List.append_assoc]
  exact List.Perm.append_left _ (List.Perm.append_left _ List.perm_append_comm)

/-- The element of the replaced table: inside the rectangle the new one, outside the old one. -/
theorem replaced_at [Zero V] {c d : Coo V} (h : c.Core) {p0 f0 p1 f1 : Nat} {news : List (Ent V)}
    (hp1 : p1 < c.rows) (hf1 : f1 < c.cols)
    (hd : d.ents.Perm (c.ents.filter (fun e => !inRect p0 f0 p1 f1 e) ++ news))
    (hdr : d.rows = c.rows) (hdc : d.cols = c.cols)
    (hnd : (news.map Ent.pos).Nodup) (hin : ∀ e ∈ news, inRect p0 f0 p1 f1 e = true)
    (hnz : ∀ e ∈ news, e.val ≠ 0) :
    d.Core ∧ ∀ i j, d.at i j =
      if (p0 ≤ i ∧ i ≤ p1) ∧ (f0 ≤ j ∧ j ≤ f1) then ({ c with ents := news } : Coo V).at i j
      else c.at i j := by
  have hmem : ∀ e, e ∈ d.ents ↔ (e ∈ c.ents ∧ inRect p0 f0 p1 f1 e = false) ∨ e ∈ news := by
    intro e
    rw [hd.mem_iff, List.mem_append, List.mem_filter]
    simp
  have hrect : ∀ e : Ent V, inRect p0 f0 p1 f1 e = true ↔ (p0 ≤ e.row ∧ e.row ≤ p1) ∧ (f0 ≤ e.col ∧ e.col ≤ f1) := by
    intro e
    simp only [inRect, Bool.and_eq_true, decide_eq_true_eq]
    tauto
  have hcore : d.Core := by
    refine ⟨?_, ?_, ?_, ?_⟩
    · refine (hd.map Ent.pos).nodup_iff.2 ?_
      rw [List.map_append, List.nodup_append]
      refine ⟨h.nodup.sublist (List.filter_sublist.map _), hnd, ?_⟩
      intro a ha b hb hab
      obtain ⟨x, hx, rfl⟩ := List.mem_map.1 ha
      obtain ⟨y, hy, rfl⟩ := List.mem_map.1 hb
      have hx' := (List.mem_filter.1 hx).2
      have hy' := hin y hy
      simp only [Ent.pos, Prod.mk.injEq] at hab
      rw [Bool.not_eq_true', ← Bool.not_eq_true, hrect] at hx'
      rw [hrect] at hy'
      rw [hab.1, hab.2] at hx'
      exact hx' hy'
    · intro e he
      rcases (hmem e).1 he with h1 | h1
      · rw [hdr]; exact h.row_lt e h1.1
      · have := (hrect e).1 (hin e h1); omega
    · intro e he
      rcases (hmem e).1 he with h1 | h1
      · rw [hdc]; exact h.col_lt e h1.1
      · have := (hrect e).1 (hin e h1); omega
    · intro e he
      rcases (hmem e).1 he with h1 | h1
      · exact h.nonzero e h1.1
      · exact hnz e h1
  refine ⟨hcore, ?_⟩
  intro i j
  by_cases hij : (p0 ≤ i ∧ i ≤ p1) ∧ (f0 ≤ j ∧ j ≤ f1)
  · rw [if_pos hij]
    refine at_eq (d := { c with ents := news }) hcore.nodup hnd (fun v => ?_)
    rw [hmem]
    constructor
    · rintro (h1 | h1)
      · have := (hrect ⟨i, j, v⟩).2 hij
        rw [this] at h1
        cases h1.2
      · exact h1
    · exact Or.inr
  · rw [if_neg hij]
    refine at_eq hcore.nodup h.nodup (fun v => ?_)
    rw [hmem]
    constructor
    · rintro (h1 | h1)
      · exact h1.1
      · exact absurd ((hrect _).1 (hin _ h1)) hij
    · intro h1
      refine Or.inl ⟨h1, ?_⟩
      rw [← Bool.not_eq_true, hrect]
      exact hij

theorem constVals_ok (p0 f0 p1 f1 : Nat) (v : V) (hp : p0 ≤ p1) (hf : f0 ≤ f1) :
    (constVals p0 f0 p1 f1 v).Ok p0 f0 p1 f1 where
  den := Nat.succ_pos _
  below := by
    intro k hk
    have : p1 + 1 - p0 = p1 - p0 + 1 := by omega
    rw [this]
    exact hk
  beyond := by
    show (p1 - p0) * (f1 - f0 + 1) < (p1 - p0 + 1) * (f1 - f0 + 1)
    rw [Nat.succ_mul]
    omega
  col := by
    intro k _
    show f0 + k % (f1 - f0 + 1) ≤ f1
    have := Nat.mod_lt k (show 0 < f1 - f0 + 1 by omega)
    omega

/-- `replaceRectangle` with a constant: exactly the elements of the rectangle become the constant.
When all stored elements lie in points before the rectangle the code raises instead, see
`C57_sparse_empty_rows_violated`; a zero constant is `C18_replaceZeros_partial`. -/
theorem C18_replaceConst_partial [Zero V] [DecidableEq V] {c : Coo V} (h : c.WF) {p0 f0 p1 f1 : Nat}
    {v : V} (hv : v ≠ 0) (hp : p0 ≤ p1) (hp1 : p1 < c.rows) (hf : f0 ≤ f1) (hf1 : f1 < c.cols)
    (hne : c.ents = [] ∨ ∃ e ∈ c.ents, p0 ≤ e.row) :
    (c.replaceConst p0 f0 p1 f1 v).2 = .ok () ∧ (c.replaceConst p0 f0 p1 f1 v).1.WF ∧
    (c.replaceConst p0 f0 p1 f1 v).1.rows = c.rows ∧ (c.replaceConst p0 f0 p1 f1 v).1.cols = c.cols ∧
    ∀ i j, (c.replaceConst p0 f0 p1 f1 v).1.at i j =
      if (p0 ≤ i ∧ i ≤ p1) ∧ (f0 ≤ j ∧ j ≤ f1) then v else c.at i j := by
  have hrw : c.replaceConst p0 f0 p1 f1 v = c.replaceVals p0 f0 p1 f1 (constVals p0 f0 p1 f1 v) := by
    unfold replaceConst
    rw [if_neg hv]
  rw [hrw]
  obtain ⟨q1, q2, q3, q4, q5, q6⟩ := replaceVals_perm h hp hp1 (constVals_ok p0 f0 p1 f1 v hp hf) hne
  obtain ⟨W, hW⟩ : ∃ W, W = f1 - f0 + 1 := ⟨_, rfl⟩
  have hWpos : 0 < W := by omega
  have hent : ∀ k, (constVals p0 f0 p1 f1 v).ent p0 f0 k = ⟨p0 + k / W, f0 + k % W, v⟩ := by
    intro k; rw [hW]; rfl
  have hstop : (constVals p0 f0 p1 f1 v).stop = (p1 - p0 + 1) * W := by rw [hW]; rfl
  have hnews : ∀ e, e ∈ (List.range (constVals p0 f0 p1 f1 v).stop).map ((constVals p0 f0 p1 f1 v).ent p0 f0) ↔
      ∃ k, k < (p1 - p0 + 1) * W ∧ e = ⟨p0 + k / W, f0 + k % W, v⟩ := by
    intro e
    rw [List.mem_map, hstop]
    constructor
    · rintro ⟨k, hk, rfl⟩; exact ⟨k, List.mem_range.1 hk, hent k⟩
    · rintro ⟨k, hk, rfl⟩; exact ⟨k, List.mem_range.2 hk, hent k⟩
  have hdiv : ∀ k, k < (p1 - p0 + 1) * W → k / W ≤ p1 - p0 := by
    intro k hk
    have := Nat.div_lt_of_lt_mul (by rw [Nat.mul_comm]; exact hk : k < W * (p1 - p0 + 1))
    omega
  have hnd : (((List.range (constVals p0 f0 p1 f1 v).stop).map ((constVals p0 f0 p1 f1 v).ent p0 f0)).map
      Ent.pos).Nodup := by
    rw [List.map_map]
    refine List.Nodup.map_on ?_ List.nodup_range
    intro x _ y _ hxy
    simp only [Function.comp, hent, Ent.pos, Prod.mk.injEq] at hxy
    have h1 : x / W = y / W := by omega
    have h2 : x % W = y % W := by omega
    rw [← Nat.mod_add_div x W, ← Nat.mod_add_div y W, h1, h2]
  obtain ⟨r1, r2⟩ := replaced_at h.toCore hp1 hf1 q6 q2 q3 hnd
    (by
      intro e he
      obtain ⟨k, hk, rfl⟩ := (hnews e).1 he
      have a := hdiv k hk
      have b := Nat.mod_lt k hWpos
      simp only [inRect, Bool.and_eq_true, decide_eq_true_eq]
      generalize k / W = q at a ⊢
      generalize k % W = m at b ⊢
      omega)
    (by
      intro e he
      obtain ⟨k, hk, rfl⟩ := (hnews e).1 he
      exact hv)
  refine ⟨q1, r1.wf q4 q5, q2, q3, ?_⟩
  intro i j
  rw [r2]
  by_cases hij : (p0 ≤ i ∧ i ≤ p1) ∧ (f0 ≤ j ∧ j ≤ f1)
  · rw [if_pos hij, if_pos hij]
    refine at_of_mem (c := ({ c with ents := _ } : Coo V)) (e := ⟨i, j, v⟩) hnd ((hnews _).2 ?_)
    refine ⟨(j - f0) + W * (i - p0), ?_, ?_⟩
    · calc j - f0 + W * (i - p0) < W * 1 + W * (i - p0) := by omega
        _ = W * (i - p0 + 1) := by rw [Nat.mul_add, Nat.add_comm]
        _ ≤ W * (p1 - p0 + 1) := Nat.mul_le_mul_left _ (by omega)
        _ = _ := Nat.mul_comm _ _
    · rw [Nat.add_mul_div_left _ _ hWpos, Nat.add_mul_mod_self_left, Nat.div_eq_of_lt (by omega),
        Nat.mod_eq_of_lt (by omega)]
      congr 1 <;> omega
  · rw [if_neg hij, if_neg hij]

theorem objVals_ok [Zero V] (p0 f0 p1 f1 : Nat) (ents : List (Ent V)) (hp : p0 ≤ p1)
    (hr : ∀ e ∈ ents, e.row < p1 - p0 + 1) (hc : ∀ e ∈ ents, e.col < f1 - f0 + 1) (hf : f0 ≤ f1) :
    (objVals p1 f1 ents).Ok p0 f0 p1 f1 where
  den := Nat.one_pos
  below := by
    intro k hk
    have hk' : k < ents.length := hk
    show (match ents[k]? with | some e => e.row | none => p1 + 1) < (p1 + 1 - p0) * 1
    rw [List.getElem?_eq_getElem hk']
    have := hr _ (List.getElem_mem hk')
    dsimp only
    omega
  beyond := by
    show (p1 - p0) * 1 < (match ents[ents.length]? with | some e => e.row | none => p1 + 1)
    rw [List.getElem?_eq_none (Nat.le_refl _), Nat.mul_one]
    exact Nat.lt_succ_of_le (Nat.sub_le _ _)
  col := by
    intro k hk
    have hk' : k < ents.length := hk
    show f0 + (match ents[k]? with | some e => e.col | none => f1 + 1) ≤ f1
    rw [List.getElem?_eq_getElem hk']
    have := hc _ (List.getElem_mem hk')
    dsimp only
    omega

/-- `replaceRectangle` with an object: exactly the elements of the rectangle become those of the
object. -/
theorem C18_replaceObj_partial [Zero V] {c o : Coo V} (h : c.WF) (ho : o.WF) {p0 f0 p1 f1 : Nat}
    (hp : p0 ≤ p1) (hp1 : p1 < c.rows) (hf : f0 ≤ f1) (hf1 : f1 < c.cols)
    (hor : o.rows = p1 - p0 + 1) (hoc : o.cols = f1 - f0 + 1)
    (hne : c.ents = [] ∨ ∃ e ∈ c.ents, p0 ≤ e.row) :
    (c.replaceObj o p0 f0 p1 f1).2 = .ok () ∧ (c.replaceObj o p0 f0 p1 f1).1.WF ∧
    (c.replaceObj o p0 f0 p1 f1).1.rows = c.rows ∧ (c.replaceObj o p0 f0 p1 f1).1.cols = c.cols ∧
    ∀ i j, (c.replaceObj o p0 f0 p1 f1).1.at i j =
      if (p0 ≤ i ∧ i ≤ p1) ∧ (f0 ≤ j ∧ j ≤ f1) then o.at (i - p0) (j - f0) else c.at i j := by
  have hs := sortInternal_spec ho.toCore .point false false (fun _ => ho)
  unfold replaceObj
  obtain ⟨o1, ho1⟩ : ∃ o1, o1 = o.sortInternal .point false := ⟨_, rfl⟩
  rw [← ho1] at hs ⊢
  have hor1 : ∀ e ∈ o1.ents, e.row < p1 - p0 + 1 := fun e he => by
    rw [← hor, ← hs.rows]; exact hs.wf.row_lt e he
  have hoc1 : ∀ e ∈ o1.ents, e.col < f1 - f0 + 1 := fun e he => by
    rw [← hoc, ← hs.cols]; exact hs.wf.col_lt e he
  obtain ⟨q1, q2, q3, q4, q5, q6⟩ := replaceVals_perm h hp hp1
    (objVals_ok p0 f0 p1 f1 o1.ents hp hor1 hoc1 hf) hne
  have hnews : (List.range (objVals p1 f1 o1.ents).stop).map ((objVals p1 f1 o1.ents).ent p0 f0)
      = o1.ents.map (fun e => ⟨p0 + e.row, f0 + e.col, e.val⟩) := by
    apply List.ext_getElem?
    intro k
    show (List.map _ (List.range o1.ents.length))[k]? = _
    by_cases hk : k < o1.ents.length
    · simp only [List.getElem?_map, List.getElem?_range hk, Option.map_some,
        List.getElem?_eq_getElem hk, Vals.ent, objVals, Nat.div_one]
    · rw [List.getElem?_eq_none (by simp; omega), List.getElem?_eq_none (by simp; omega)]
  rw [hnews] at q6
  have hnd : ((o1.ents.map (fun e => (⟨p0 + e.row, f0 + e.col, e.val⟩ : Ent V))).map Ent.pos).Nodup := by
    rw [List.map_map]
    refine List.Nodup.map_on ?_ hs.wf.nodup.of_map
    intro x hx y hy hxy
    simp only [Function.comp, Ent.pos, Prod.mk.injEq] at hxy
    exact List.inj_on_of_nodup_map hs.wf.nodup hx hy (by simp only [Ent.pos, Prod.mk.injEq]; omega)
  obtain ⟨r1, r2⟩ := replaced_at h.toCore hp1 hf1 q6 q2 q3 hnd
    (by
      intro e he
      obtain ⟨x, hx, rfl⟩ := List.mem_map.1 he
      have a := hor1 x hx
      have b := hoc1 x hx
      simp only [inRect, Bool.and_eq_true, decide_eq_true_eq]
      omega)
    (by
      intro e he
      obtain ⟨x, hx, rfl⟩ := List.mem_map.1 he
      exact hs.wf.nonzero x hx)
  refine ⟨q1, r1.wf q4 q5, q2, q3, ?_⟩
  intro i j
  rw [r2]
  by_cases hij : (p0 ≤ i ∧ i ≤ p1) ∧ (f0 ≤ j ∧ j ≤ f1)
  · rw [if_pos hij, if_pos hij, ← at_perm ho.nodup hs.perm]
    refine at_eq (c := ({ c with ents := _ } : Coo V)) hnd hs.wf.nodup (fun v => ?_)
    show _ ∈ List.map _ _ ↔ _
    rw [List.mem_map]
    constructor
    · rintro ⟨e, he, heq⟩
      simp only [Ent.mk.injEq] at heq
      have : e = ⟨i - p0, j - f0, v⟩ := by
        cases e
        simp only [Ent.mk.injEq] at heq ⊢
        exact ⟨by omega, by omega, heq.2.2⟩
      rw [← this]; exact he
    · intro he
      refine ⟨_, he, ?_⟩
      simp only [Ent.mk.injEq, and_true]
      omega
  · rw [if_neg hij, if_neg hij]

/-- `replaceRectangle` with zero: the elements of the rectangle become zero. What the object records
about its internal order is not kept up to date, so this does not say that later reads are right: see
`C18_replaceZeros_stale_violated`. -/
theorem C18_replaceZeros_partial [Zero V] {c : Coo V} (h : c.WF) {p0 f0 p1 f1 : Nat} (hp1 : p1 < c.rows)
    (hf1 : f1 < c.cols) :
    (c.replaceZeros p0 f0 p1 f1).Core ∧
    ∀ i j, (c.replaceZeros p0 f0 p1 f1).at i j =
      if (p0 ≤ i ∧ i ≤ p1) ∧ (f0 ≤ j ∧ j ≤ f1) then 0 else c.at i j := by
  obtain ⟨r1, r2⟩ := replaced_at (d := c.replaceZeros p0 f0 p1 f1) (news := []) h.toCore hp1 hf1
    (by rw [List.append_nil]; exact List.Perm.refl _) rfl rfl List.nodup_nil
    (by intro e he; cases he) (by intro e he; cases he)
  refine ⟨r1, fun i j => ?_⟩
  rw [r2]
  rfl

/-! ## Disagreements -/

/-- A Sparse object with the given table whose entries are known to be sorted by points. -/
def sortedOf (n : Nat) (t : List (List Int)) : Coo Int := { ofDense n t with sorted := some .point }

theorem sortedOf_wf {n : Nat} {t : List (List Int)} (h : ∀ r ∈ t, r.length = n)
    (hs : (ofDense n t).ents.Pairwise (fun a b => lexLe .point a b = true)) : (sortedOf n t).WF where
  toCore :=
    have w := (C18_ofDense h).1
    ⟨w.nodup, w.row_lt, w.col_lt, w.nonzero⟩
  sorted_ok := by
    intro ax hax
    cases (Option.some.inj hax)
    exact hs
  indices_ok := by intro l hl; cases hl

/-- The object `[[1, 2], [3, 4]]`. -/
def sample4 : Coo Int := sortedOf 2 [[1, 2], [3, 4]]

theorem sample4_wf : sample4.WF := sortedOf_wf (by decide) (by decide)

/-- Reading an element makes a Sparse object remember where its points start. Replacing a rectangle
with zero removes entries without updating this (sparse.py:581-610), so that a later read of an
untouched element returns a wrong value: after `a[0, 0]` and `a.replaceRectangle(0, 0, 0, 0, 0)` the
element `a[1, 0]` of `[[0, 2], [3, 4]]` is read as 0. -/
theorem C18_replaceZeros_stale_violated :
    ¬ (∀ (c : Coo Int), c.WF → ∀ x y p0 f0 p1 f1 i j, x < c.rows → y < c.cols → p1 < c.rows → f1 < c.cols →
      i < c.rows → j < c.cols →
      (((c.getitem x y).1.replaceConst p0 f0 p1 f1 0).1.getitem i j).2
        = .ok (((c.getitem x y).1.replaceConst p0 f0 p1 f1 0).1.at i j)) := by
  intro h
  have := h sample4 sample4_wf 0 0 0 0 0 0 1 0 (by decide) (by decide) (by decide)
    (by decide) (by decide) (by decide)
  revert this
  decide +kernel

/-- The same for `transformElements(f, preserveZeros=True)` (sparse.py:179-199) when `f` maps a
non-zero element to zero. -/
theorem C18_transform_stale_violated :
    ¬ (∀ (c : Coo Int), c.WF → ∀ x y (f : Int → Int) i j, f 0 = 0 → x < c.rows → y < c.cols →
      i < c.rows → j < c.cols →
      (((c.getitem x y).1.transformStored f).getitem i j).2
        = .ok (((c.getitem x y).1.transformStored f).at i j)) := by
  intro h
  have := h sample4 sample4_wf 0 0 (fun v => if v = 1 then 0 else v) 1 0 (by decide)
    (by decide) (by decide) (by decide) (by decide)
  revert this
  decide +kernel

/-- `a % b` of two Sparse objects combines the stored values by their position in memory, not by their
coordinates (sparse.py:1181-1204): in `[[5, 0], [4, 7]] % [[3, 3], [2, 0]]` the element `4 % 2` comes
out as `4 % 3`. -/
theorem C18_mod_violated :
    ¬ (∀ (c d r : Coo Int), c.WF → d.WF → c.rows = d.rows → c.cols = d.cols →
      genericMod (fun a b => a.emod b) c d = .ok r → ∀ i j, i < c.rows → j < c.cols →
      d.at i j ≠ 0 → r.at i j = (c.at i j).emod (d.at i j)) := by
  intro h
  have := h (sortedOf 2 [[5, 0], [4, 7]]) (sortedOf 2 [[3, 3], [2, 0]])
    { rows := 2, cols := 2, ents := [⟨0, 0, 2⟩, ⟨1, 0, 1⟩, ⟨1, 1, 1⟩] }
    (sortedOf_wf (by decide) (by decide)) (sortedOf_wf (by decide) (by decide)) rfl rfl (by decide +kernel) 1 0 (by decide)
    (by decide) (by decide +kernel)
  revert this
  decide +kernel

/-- Replacing a rectangle below all stored elements raises an IndexError (sparse.py:441): with
`a = [[1], [0]]` as Sparse, `a.replaceRectangle(5, 1, 0, 1, 0)` does not make it `[[1], [5]]`. -/
theorem C57_sparse_empty_rows_violated :
    ¬ (∀ (c : Coo Int), c.WF → ∀ p0 f0 p1 f1 v, p0 ≤ p1 → p1 < c.rows → f0 ≤ f1 → f1 < c.cols →
      (c.replaceConst p0 f0 p1 f1 v).2 = .ok ()) := by
  intro h
  have := h (sortedOf 1 [[1], [0]]) (sortedOf_wf (by decide) (by decide)) 1 0 1 0 5 (by decide) (by decide)
    (by decide) (by decide)
  revert this
  decide +kernel

/-- The hypotheses of the replacement theorems are met by ordinary objects, and the walk does what it
should on them. -/
theorem C18_replace_example :
    sample4.WF ∧ (∃ e ∈ sample4.ents, (0 : Nat) ≤ e.row) ∧
    (sample4.replaceConst 0 1 1 1 9).1.dense = [[1, 9], [3, 9]] ∧
    ((sortedOf 3 [[1, 0, 2], [0, 3, 0], [4, 5, 6]]).replaceObj (sortedOf 2 [[0, 8], [7, 0]]) 0 1 1 2).1.dense
      = ([[1, 0, 8], [0, 7, 0], [4, 5, 6]] : List (List Int)) :=
  ⟨sample4_wf, ⟨⟨0, 0, 1⟩, by decide +kernel, Nat.zero_le _⟩, by decide +kernel, by decide +kernel⟩

end Coo
end Sp
end Nimble
