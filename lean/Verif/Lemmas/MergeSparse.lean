import Verif.Props.MergeMatrix
import Verif.Props.Sparse

/-! Helper lemmas: the merge of `Sparse` objects works on the rows of the table. -/

namespace Nimble
namespace Sp
variable {V : Type} [DecidableEq V] [Zero V]

/-! ## Rows of the table -/

omit [DecidableEq V] in
theorem denseRow_eq {c : Coo V} (h : (c.ents.map Ent.pos).Nodup) (w i : Nat) :
    denseRow w c.ents i = (List.range w).map (fun j => c.at i j) := by
  unfold denseRow
  apply List.map_congr_left
  intro j _
  by_cases hex : ∃ e ∈ c.ents, e.pos = (i, j)
  · obtain ⟨e, he, hp⟩ := hex
    have hij : e.row = i ∧ e.col = j := by
      unfold Ent.pos at hp
      exact ⟨congrArg Prod.fst hp, congrArg Prod.snd hp⟩
    have hat := Coo.at_of_mem h he
    rw [hij.1, hij.2] at hat
    rw [hat]
    have hall : ∀ x ∈ c.ents.filter (fun e => decide (e.row = i ∧ e.col = j)), x = e := by
      intro x hx
      have h1 := List.mem_filter.1 hx
      have h2 := of_decide_eq_true h1.2
      exact List.inj_on_of_nodup_map h h1.1 he (by rw [hp]; unfold Ent.pos; rw [h2.1, h2.2])
    have hne : c.ents.filter (fun e => decide (e.row = i ∧ e.col = j)) ≠ [] := by
      intro h0
      have : e ∈ c.ents.filter (fun e => decide (e.row = i ∧ e.col = j)) :=
        List.mem_filter.2 ⟨he, by simpa using hij⟩
      rw [h0] at this
      cases this
    rw [List.getLast?_eq_some_getLast hne, hall _ (List.getLast_mem hne)]
    rfl
  · have hno : ∀ e ∈ c.ents, e.pos ≠ (i, j) := fun e he hp => hex ⟨e, he, hp⟩
    rw [Coo.at_of_not hno]
    have : c.ents.filter (fun e => decide (e.row = i ∧ e.col = j)) = [] := by
      rw [List.filter_eq_nil_iff]
      intro e he hd
      have h2 := of_decide_eq_true hd
      exact hno e he (by unfold Ent.pos; rw [h2.1, h2.2])
    rw [this]
    rfl

omit [DecidableEq V] in
theorem tableOf_eq {c : Coo V} (h : (c.ents.map Ent.pos).Nodup) : tableOf c = c.dense := by
  unfold tableOf Coo.dense
  apply List.map_congr_left
  intro i _
  exact denseRow_eq h c.cols i

omit [DecidableEq V] in
@[simp] theorem length_denseRow (w : Nat) (ents : List (Ent V)) (i : Nat) : (denseRow w ents i).length = w := by
  simp [denseRow]

omit [DecidableEq V] [Zero V] in
/-- Values in the order of a coordinate. -/
theorem vals_eq {es : List (Ent V)} {f : Ent V → Nat} {ks : List Nat} {g : Nat → V}
    (hs : es.Pairwise (fun a b => f a < f b)) (hk : ks.Pairwise (· < ·))
    (hm : ∀ k, k ∈ ks ↔ ∃ e ∈ es, f e = k) (hv : ∀ e ∈ es, e.val = g (f e)) : es.map Ent.val = ks.map g := by
  have hmap : es.map f = ks := by
    have hp : (es.map f).Pairwise (· < ·) := by
      rw [List.pairwise_map]; exact hs
    apply List.Perm.eq_of_pairwise (le := (· < ·)) (fun a b _ _ h1 h2 => by omega) hp hk
    rw [List.perm_ext_iff_of_nodup (hp.imp (fun h => by omega)) (hk.imp (fun h => by omega))]
    intro k
    rw [hm k, List.mem_map]
  rw [← hmap, List.map_map]
  apply List.map_congr_left
  intro e he
  exact hv e he

omit [DecidableEq V] in
private theorem sorted_strict {c : Coo V} (h : c.WF) (hs : c.sorted = some .feature) :
    c.ents.Pairwise (fun a b => (a.col < b.col ∨ a.col = b.col ∧ a.row ≤ b.row) ∧ (a.row, a.col) ≠ (b.row, b.col)) := by
  have h1 := h.sorted_ok _ hs
  have h2 := List.pairwise_map.1 h.nodup
  refine (h1.and h2).imp ?_
  rintro a b ⟨ha, hb⟩
  refine ⟨?_, hb⟩
  unfold Coo.lexLe at ha
  rw [Bool.or_eq_true, Bool.and_eq_true] at ha
  rcases ha with ha | ⟨ha, hb⟩
  · exact .inl (of_decide_eq_true ha)
  · exact .inr ⟨of_decide_eq_true ha, of_decide_eq_true hb⟩

omit [DecidableEq V] in
/-- The stored values of a column without zeros are the column. -/
theorem column_full {c : Coo V} (h : c.WF) (hs : c.sorted = some .feature) {j : Nat}
    (hz : ∀ i < c.rows, c.at i j ≠ 0) : column c.ents j = (List.range c.rows).map (fun i => c.at i j) := by
  unfold column
  apply vals_eq (f := Ent.row)
  · refine ((sorted_strict h hs).filter _).imp_of_mem ?_
    intro a b ha hb hab
    have ha := of_decide_eq_true (List.mem_filter.1 ha).2
    have hb := of_decide_eq_true (List.mem_filter.1 hb).2
    obtain ⟨h1, h2⟩ := hab
    rw [ha, hb] at h1 h2
    rcases Nat.lt_or_ge a.row b.row with h3 | h3
    · exact h3
    · exfalso
      apply h2
      rw [Prod.mk.injEq]
      omega
  · exact List.pairwise_lt_range
  · intro i
    rw [List.mem_range]
    constructor
    · intro hi
      by_contra hno
      apply hz i hi
      apply Coo.at_of_not
      intro e he hp
      unfold Ent.pos at hp
      exact hno ⟨e, List.mem_filter.2 ⟨he, by simpa using congrArg Prod.snd hp⟩, congrArg Prod.fst hp⟩
    · rintro ⟨e, he, rfl⟩
      exact h.row_lt e (List.mem_filter.1 he).1
  · intro e he
    have h1 := List.mem_filter.1 he
    have h2 := of_decide_eq_true h1.2
    rw [← h2, Coo.at_of_mem h.nodup h1.1]

omit [DecidableEq V] in
/-- The stored values of a row outside of some columns, if there are no zeros. -/
theorem rest_full {c : Coo V} (h : c.WF) (hs : c.sorted = some .feature) {i : Nat} {mR : List Nat}
    (hz : ∀ j < c.cols, j ∉ mR → c.at i j ≠ 0) :
    (c.ents.filter (fun e => decide (e.row = i ∧ e.col ∉ mR))).map Ent.val =
      ((List.range c.cols).filter (fun j => decide (j ∉ mR))).map (fun j => c.at i j) := by
  apply vals_eq (f := Ent.col)
  · refine ((sorted_strict h hs).filter _).imp_of_mem ?_
    intro a b ha hb hab
    have ha := of_decide_eq_true (List.mem_filter.1 ha).2
    have hb := of_decide_eq_true (List.mem_filter.1 hb).2
    obtain ⟨h1, h2⟩ := hab
    rw [ha.1, hb.1] at h1 h2
    rcases h1 with h1 | h1
    · exact h1
    · exfalso
      apply h2
      rw [Prod.mk.injEq]
      exact ⟨rfl, h1.1⟩
  · exact List.pairwise_lt_range.filter _
  · intro j
    rw [List.mem_filter, List.mem_range, decide_eq_true_eq]
    constructor
    · rintro ⟨hj, hm⟩
      by_contra hno
      apply hz j hj hm
      apply Coo.at_of_not
      intro e he hp
      unfold Ent.pos at hp
      have h1 := congrArg Prod.fst hp
      have h2 := congrArg Prod.snd hp
      dsimp only at h1 h2
      exact hno ⟨e, List.mem_filter.2 ⟨he, by simp [h1, h2, hm]⟩, h2⟩
    · rintro ⟨e, he, rfl⟩
      have h1 := List.mem_filter.1 he
      exact ⟨h.col_lt e h1.1, (of_decide_eq_true h1.2).2⟩
  · intro e he
    have h1 := List.mem_filter.1 he
    have h2 := of_decide_eq_true h1.2
    rw [← h2.1, Coo.at_of_mem h.nodup h1.1]

/-! ## The keys -/

omit [DecidableEq V] [Zero V] in
private theorem filter_keys (keys : List V) (i : Nat) (hi : i < keys.length) :
    (keys.mapIdx (fun i v => (⟨i, 0, v⟩ : Ent V))).filter (fun e => decide (e.row = i ∧ e.col = 0)) =
      [⟨i, 0, keys[i]⟩] := by
  have hnd : (keys.mapIdx (fun i v => (⟨i, 0, v⟩ : Ent V))).Nodup := by
    rw [List.nodup_iff_getElem?_ne_getElem?]
    intro a b hab hb
    rw [List.length_mapIdx] at hb
    rw [List.getElem?_mapIdx, List.getElem?_mapIdx, List.getElem?_eq_getElem (by omega), List.getElem?_eq_getElem hb]
    simp only [Option.map_some, ne_eq, Option.some.injEq, Ent.mk.injEq, not_and]
    intro h; omega
  rw [← List.perm_singleton, List.perm_ext_iff_of_nodup (hnd.filter _) (by simp)]
  intro e
  rw [List.mem_filter, List.mem_mapIdx, decide_eq_true_eq, List.mem_singleton]
  constructor
  · rintro ⟨⟨k, hk, rfl⟩, h1, _⟩
    dsimp only at h1
    subst h1
    rfl
  · rintro rfl
    exact ⟨⟨i, hi, rfl⟩, rfl, rfl⟩

omit [DecidableEq V] in
theorem denseRow_augment {keys : List V} (ents : List (Ent V)) (w : Nat) {i : Nat} (hi : i < keys.length) :
    denseRow (w + 1) (augment keys ents) i = keys[i] :: denseRow w ents i := by
  unfold denseRow
  rw [List.range_succ_eq_map, List.map_cons, List.map_map]
  congr 1
  · unfold augment
    rw [List.filter_append, filter_keys keys i hi]
    have : (ents.map (fun e => { e with col := e.col + 1 })).filter (fun e => decide (e.row = i ∧ e.col = 0)) = [] := by
      rw [List.filter_eq_nil_iff]
      intro e he
      obtain ⟨e', _, rfl⟩ := List.mem_map.1 he
      simp
    rw [this]
    rfl
  · apply List.map_congr_left
    intro j _
    simp only [Function.comp]
    unfold augment
    rw [List.filter_append]
    have : (keys.mapIdx (fun i v => (⟨i, 0, v⟩ : Ent V))).filter
        (fun e => decide (e.row = i ∧ e.col = Nat.succ j)) = [] := by
      rw [List.filter_eq_nil_iff]
      intro e he
      obtain ⟨k, hk, rfl⟩ := List.mem_mapIdx.1 he
      simp
    rw [this, List.nil_append, List.filter_map]
    have hf : ((fun e : Ent V => decide (e.row = i ∧ e.col = Nat.succ j)) ∘ fun e => { e with col := e.col + 1 }) =
        fun e : Ent V => decide (e.row = i ∧ e.col = j) := by
      funext e
      simp [Function.comp]
    rw [hf, List.getLast?_map, Option.map_map]
    rfl

omit [DecidableEq V] [Zero V] in
theorem column_augment (keys : List V) (ents : List (Ent V)) : column (augment keys ents) 0 = keys := by
  unfold column augment
  rw [List.filter_append]
  have h1 : (ents.map (fun e => { e with col := e.col + 1 })).filter (fun e => decide (e.col = 0)) = [] := by
    rw [List.filter_eq_nil_iff]
    intro e he
    obtain ⟨e', _, rfl⟩ := List.mem_map.1 he
    simp
  have h2 : (keys.mapIdx (fun i v => (⟨i, 0, v⟩ : Ent V))).filter (fun e => decide (e.col = 0)) =
      keys.mapIdx (fun i v => (⟨i, 0, v⟩ : Ent V)) := by
    rw [List.filter_eq_self]
    intro e he
    obtain ⟨k, hk, rfl⟩ := List.mem_mapIdx.1 he
    simp
  rw [h1, h2, List.append_nil]
  apply List.ext_getElem (by simp)
  intro i h1 h2
  simp

omit [DecidableEq V] [Zero V] in
theorem rest_augment (keys : List V) (ents : List (Ent V)) (i : Nat) (mR : List Nat) :
    ((augment keys ents).filter (fun e => decide (e.row = i ∧ e.col ∉ 0 :: mR.map (· + 1)))).map Ent.val =
      (ents.filter (fun e => decide (e.row = i ∧ e.col ∉ mR))).map Ent.val := by
  unfold augment
  rw [List.filter_append]
  have h1 : (keys.mapIdx (fun i v => (⟨i, 0, v⟩ : Ent V))).filter
      (fun e => decide (e.row = i ∧ e.col ∉ 0 :: mR.map (· + 1))) = [] := by
    rw [List.filter_eq_nil_iff]
    intro e he
    obtain ⟨k, hk, rfl⟩ := List.mem_mapIdx.1 he
    simp
  rw [h1, List.nil_append, List.filter_map, List.map_map]
  have hf : ((fun e : Ent V => decide (e.row = i ∧ e.col ∉ 0 :: mR.map (· + 1))) ∘
      fun e => { e with col := e.col + 1 }) = fun e : Ent V => decide (e.row = i ∧ e.col ∉ mR) := by
    funext e
    simp [Function.comp]
  rw [hf]
  rfl

/-! ## The loops -/

theorem spMatches_eq (nan : V) (feature : MergeMode) (p : SpPrep V) (i : Nat) : ∀ js : List Nat,
    spMatches nan feature p i js = (matMatches nan p.mL p.mR (denseRow p.wL p.left i)
      (js.map (denseRow p.wR p.right))).map (List.map (selectPt feature p))
  | [] => rfl
  | j :: js => by
    unfold spMatches
    rw [List.map_cons]
    unfold matMatches
    split
    · rw [spMatches_eq nan feature p i js]
      cases matMatches nan p.mL p.mR (denseRow p.wL p.left i) (js.map (denseRow p.wR p.right)) <;> rfl
    · rfl

section
variable {nan : V} {point feature : MergeMode} {p : SpPrep V} {nL nR : Nat}

theorem places_eq (hR : column p.right p.onR = (List.range nR).map (fun j => rowCell nan (denseRow p.wR p.right j) p.onR))
    (t : V) : (placesOf nan (column p.right p.onR) t).map (denseRow p.wR p.right) =
      mergeMates nan p.onR ((List.range nR).map (denseRow p.wR p.right)) t := by
  unfold placesOf mergeMates
  rw [hR, List.length_map, List.length_range, List.filter_map]
  congr 1
  apply List.filter_congr
  intro j hj
  have hj : j < nR := by simpa using hj
  simp only [Function.comp]
  rw [rowCell_eq nan (List.map _ _), List.getElem?_map, List.getElem?_range hj]
  rfl

theorem spLeft_eq (hR : column p.right p.onR = (List.range nR).map (fun j => rowCell nan (denseRow p.wR p.right j) p.onR)) :
    ∀ is : List Nat, spLeft nan point feature p (is.map (fun i => (rowCell nan (denseRow p.wL p.left i) p.onL, i))) =
      (matLeft nan point p.mL p.mR p.onL p.onR ((List.range nR).map (denseRow p.wR p.right)) (p.wR - p.mR.length)
        (is.map (denseRow p.wL p.left))).map (List.map (selectPt feature p))
  | [] => rfl
  | i :: is => by
    rw [List.map_cons, List.map_cons]
    unfold spLeft matLeft
    rw [spLeft_eq hR is]
    have hpt : spPoint nan point feature p i (placesOf nan (column p.right p.onR)
          (rowCell nan (denseRow p.wL p.left i) p.onL)) =
        (matPoint nan point p.mL p.mR (p.wR - p.mR.length) (denseRow p.wL p.left i)
          (mergeMates nan p.onR ((List.range nR).map (denseRow p.wR p.right))
            (rowCell nan (denseRow p.wL p.left i) p.onL))).map (List.map (selectPt feature p)) := by
      unfold spPoint matPoint
      rw [← places_eq hR, spMatches_eq]
      by_cases h : placesOf nan (column p.right p.onR) (rowCell nan (denseRow p.wL p.left i) p.onL) = []
      · rw [if_pos h, h, List.map_nil, if_pos rfl]
        by_cases hp : point = .intersection
        · rw [if_pos hp, if_pos hp]; rfl
        · rw [if_neg hp, if_neg hp]; rfl
      · rw [if_neg h, if_neg (by simpa using h)]
    dsimp only
    rw [hpt]
    simp only [bind, Except.bind, pure, Except.pure]
    cases matPoint nan point p.mL p.mR (p.wR - p.mR.length) (denseRow p.wL p.left i)
          (mergeMates nan p.onR ((List.range nR).map (denseRow p.wR p.right))
            (rowCell nan (denseRow p.wL p.left i) p.onL)) with
    | error e => rfl
    | ok here =>
      cases matLeft nan point p.mL p.mR p.onL p.onR ((List.range nR).map (denseRow p.wR p.right))
          (p.wR - p.mR.length) (is.map (denseRow p.wL p.left)) with
      | error e => rfl
      | ok more => simp [Except.map]

omit [DecidableEq V] [Zero V] in
private theorem zipIdx_range {A : Type} (n : Nat) (f : Nat → A) :
    ((List.range n).map f).zipIdx = (List.range n).map (fun i => (f i, i)) := by
  apply List.ext_getElem (by simp)
  intro i h1 h2
  simp

/-- `Sparse` computes the rows of the `Matrix` merge with all features and then selects columns. -/
theorem spRows_eq
    (hL : column p.left p.onL = (List.range nL).map (fun i => rowCell nan (denseRow p.wL p.left i) p.onL))
    (hR : column p.right p.onR = (List.range nR).map (fun j => rowCell nan (denseRow p.wR p.right j) p.onR))
    (hnew : point = .union → ∀ j < nR, spNew nan feature p j =
      selectPt feature p (newRow nan p.mL p.mR p.wL (denseRow p.wR p.right j))) :
    spRows nan point feature p = (matCore nan point p.mL p.mR p.onL p.onR p.wL p.wR
      ((List.range nL).map (denseRow p.wL p.left)) ((List.range nR).map (denseRow p.wR p.right))).map
        (List.map (selectPt feature p)) := by
  unfold spRows matCore
  have h1 : (column p.left p.onL).zipIdx =
      (List.range nL).map (fun i => (rowCell nan (denseRow p.wL p.left i) p.onL, i)) := by
    rw [hL, zipIdx_range]
  have h2 : (column p.right p.onR).zipIdx =
      (List.range nR).map (fun j => (rowCell nan (denseRow p.wR p.right j) p.onR, j)) := by
    rw [hR, zipIdx_range]
  have h3 : spMatched nan p = matchedTargets nan p.onL p.onR ((List.range nL).map (denseRow p.wL p.left))
      ((List.range nR).map (denseRow p.wR p.right)) := by
    unfold spMatched matchedTargets
    rw [List.map_map]
    have : (fun l => rowCell nan l p.onL) ∘ denseRow p.wL p.left =
        fun i => rowCell nan (denseRow p.wL p.left i) p.onL := rfl
    rw [this, ← hL]
    apply List.filter_congr
    intro t _
    rw [← places_eq hR, List.isEmpty_map]
  rw [h1, h2, h3, spLeft_eq hR]
  simp only [bind, Except.bind, pure, Except.pure]
  cases matLeft nan point p.mL p.mR p.onL p.onR ((List.range nR).map (denseRow p.wR p.right))
      (p.wR - p.mR.length) ((List.range nL).map (denseRow p.wL p.left)) with
  | error e => rfl
  | ok rows =>
    simp only [Except.map, List.map_append]
    congr 2
    by_cases hp : point = .union
    · rw [if_pos hp, if_pos hp, List.filter_map, List.filter_map, List.map_map, List.map_map, List.map_map]
      apply List.map_congr_left
      intro j hj
      exact hnew hp j (by simpa using (List.mem_filter.1 hj).1)
    · rw [if_neg hp, if_neg hp]
      rfl

end

/-! ## New points -/

omit [DecidableEq V] [Zero V] in
theorem length_fold (r : Nat → V) : ∀ (ps : List (Nat × Nat)) (a : List V),
    (ps.foldl (fun pt q => pt.set q.1 (r q.2)) a).length = a.length
  | [], _ => rfl
  | q :: ps, a => by
    rw [List.foldl_cons, length_fold r ps, List.length_set]

omit [DecidableEq V] [Zero V] in
theorem selectPt_append {feature : MergeMode} (hf : feature ≠ .union) {p : SpPrep V} {a b b' : List V}
    (ha : a.length = p.wL) (hm : ∀ i ∈ p.mL, i < p.wL) :
    selectPt feature p (a ++ b) = selectPt feature p (a ++ b') := by
  have hpick : ∀ c : List V, pick (a ++ c) p.mL = pick a p.mL := by
    intro c
    unfold pick
    apply List.filterMap_congr
    intro i hi
    rw [List.getElem?_append_left (by rw [ha]; exact hm i hi)]
  cases feature with
  | union => exact absurd rfl hf
  | left =>
    unfold selectPt
    simp only
    rw [← ha, List.take_left, List.take_left]
  | intersection =>
    unfold selectPt
    simp only
    rw [hpick, hpick]

theorem spNew_eq {nan : V} {feature : MergeMode} {p : SpPrep V} {j : Nat} (hm : ∀ i ∈ p.mL, i < p.wL)
    (hrest : feature = .union → (p.right.filter (fun e => decide (e.row = j ∧ e.col ∉ p.mR))).map Ent.val =
      dropIdx (denseRow p.wR p.right j) p.mR) :
    spNew nan feature p j = selectPt feature p (newRow nan p.mL p.mR p.wL (denseRow p.wR p.right j)) := by
  unfold spNew newRow
  by_cases hf : feature = .union
  · rw [hrest hf]
  · apply selectPt_append hf _ hm
    rw [length_fold, List.length_replicate]

omit [DecidableEq V] in
theorem dropIdx_denseRow {c : Coo V} (h : (c.ents.map Ent.pos).Nodup) (j : Nat) (mR : List Nat) :
    dropIdx (denseRow c.cols c.ents j) mR =
      ((List.range c.cols).filter (fun k => decide (k ∉ mR))).map (fun k => c.at j k) := by
  unfold dropIdx pick
  rw [length_denseRow]
  conv => rhs; rw [← List.filterMap_eq_map]
  apply List.filterMap_congr
  intro k hk
  have : k < c.cols := by simpa using (List.mem_filter.1 hk).1
  rw [denseRow_eq h, List.getElem?_map, List.getElem?_range this]
  rfl

end Sp
end Nimble
