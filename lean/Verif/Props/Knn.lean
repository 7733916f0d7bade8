import Verif.Model.Knn
import Verif.Lemmas.Sort
import Verif.Lemmas.Group
import Verif.Lemmas.Permute
import Mathlib.Tactic.Ring
import Mathlib.Tactic.Positivity

/-!
# C65, C66: nearest neighbour classification and imputation
-/

namespace Nimble.Knn
open Obj

variable {D L V : Type}

/-! ### Specification -/

/-- The squared Euclidean distance. -/
def sqDist (a b : List Rat) : Rat := (List.zipWith (fun x y => (x - y) * (x - y)) a b).sum

/-- Training point `i` comes before training point `j`: it is closer, or equally close and earlier. -/
def Closer (d : Nat → Rat) (i j : Nat) : Prop := d i < d j ∨ (d i = d j ∧ i < j)

/-- `nb` lists the `k` nearest of `n` points (all of them if there are fewer), nearest first. -/
structure Nearest (d : Nat → Rat) (n k : Nat) (nb : List Nat) : Prop where
  nodup : nb.Nodup
  bound : ∀ i ∈ nb, i < n
  length : nb.length = min k n
  sorted : nb.Pairwise (Closer d)
  nearest : ∀ i, i < n → i ∉ nb → ∀ j ∈ nb, Closer d j i

/-- `l` occurs most often in `ls`, and earlier than any label occurring equally often. -/
structure Majority [DecidableEq L] (ls : List L) (l : L) : Prop where
  mem : l ∈ ls
  most : ∀ l' ∈ ls, ls.count l' ≤ ls.count l
  tie : ∀ l' ∈ ls, ls.count l' = ls.count l → ls.idxOf l ≤ ls.idxOf l'

/-! ### Distances -/

theorem distance_eq {a b : List Rat} (h : a.length = b.length) :
    -2 * dot a b + dot b b + dot a a = sqDist a b := by
  unfold dot sqDist
  induction a generalizing b with
  | nil => cases b with
    | nil => simp
    | cons y b => simp at h
  | cons x a ih =>
    cases b with
    | nil => simp at h
    | cons y b =>
      simp only [List.length_cons, Nat.add_right_cancel_iff] at h
      simp only [List.zipWith_cons_cons, List.sum_cons]
      rw [← ih h]
      ring

theorem sqDist_nonneg (a b : List Rat) : 0 ≤ sqDist a b := by
  unfold sqDist
  induction a generalizing b with
  | nil => simp
  | cons x a ih =>
    cases b with
    | nil => simp
    | cons y b =>
      simp only [List.zipWith_cons_cons, List.sum_cons]
      have := ih b
      have h2 : 0 ≤ (x - y) * (x - y) := mul_self_nonneg _
      exact add_nonneg h2 this

/-- The square root keeps the order of the (non-negative) squared distances. -/
def RootSpec (rt : Rat → D) (le : D → D → Bool) : Prop :=
  ∀ x y : Rat, 0 ≤ x → 0 ≤ y → (le (rt x) (rt y) = true ↔ x ≤ y)

/-! ### Neighbours -/

theorem neighbours_spec {rt : Rat → D} {le : D → D → Bool} (hle : TotalOrd le) (hrt : RootSpec rt le)
    {trainX : List (List Rat)} {test : List Rat} (hlen : ∀ r ∈ trainX, test.length = r.length)
    {k : Int} (hk : 0 ≤ k) :
    Nearest (fun i => sqDist test ((trainX[i]?).getD [])) trainX.length k.toNat
      (neighbours le k (trainX.map (distance rt test))) := by
  obtain ⟨hp, hs⟩ := sortOrder_spec hle false (trainX.map (distance rt test))
  unfold neighbours pyTake
  rw [if_pos hk]
  generalize sortOrder le false (trainX.map (distance rt test)) = ord at hp hs ⊢
  rw [List.length_map] at hp
  have hb := perm_bound hp
  have hnd := perm_nodup hp
  have hpair : ord.Pairwise (Closer (fun i => sqDist test ((trainX[i]?).getD []))) := by
    refine (List.Pairwise.and_mem.1 hs).imp ?_
    rintro i j ⟨hi, hj, hij⟩
    have hi' := hb i hi
    have hj' := hb j hj
    have gi : (trainX.map (distance rt test))[i]? = some (rt (sqDist test trainX[i])) := by
      rw [List.getElem?_map, List.getElem?_eq_getElem hi', Option.map_some, distance,
        distance_eq (hlen _ (List.getElem_mem hi'))]
    have gj : (trainX.map (distance rt test))[j]? = some (rt (sqDist test trainX[j])) := by
      rw [List.getElem?_map, List.getElem?_eq_getElem hj', Option.map_some, distance,
        distance_eq (hlen _ (List.getElem_mem hj'))]
    obtain ⟨h1, h2⟩ := hij _ _ gi gj
    simp only [dirLe, Bool.false_eq_true, if_false] at h1 h2
    rw [hrt _ _ (sqDist_nonneg _ _) (sqDist_nonneg _ _)] at h1 h2
    unfold Closer
    simp only [List.getElem?_eq_getElem hi', List.getElem?_eq_getElem hj', Option.getD_some]
    rcases lt_or_eq_of_le h1 with h | h
    · exact Or.inl h
    · exact Or.inr ⟨h, h2 (le_of_eq h.symm)⟩
  refine ⟨hnd.sublist (List.take_sublist _ _), fun i hi => hb i (List.mem_of_mem_take hi), ?_,
    hpair.sublist (List.take_sublist _ _), ?_⟩
  · have := hp.length_eq
    rw [List.length_range] at this
    rw [List.length_take, this]
  · intro i hi hni j hj
    have him : i ∈ ord := hp.mem_iff.2 (List.mem_range.2 hi)
    rw [← List.take_append_drop k.toNat ord] at him hpair
    have hd : i ∈ ord.drop k.toNat := (List.mem_append.1 him).resolve_left hni
    exact (List.pairwise_append.1 hpair).2.2 j hj i hd

/-! ### Votes -/

private theorem set_mapKeys_not_mem {K B : Type} [DecidableEq K] {ks : List K} (f : K → B) {k : K}
    (hk : k ∉ ks) (v : B) :
    PyDict.set (ks.map (fun k => (k, f k))) k v = ks.map (fun k' => (k', f k')) ++ [(k, v)] := by
  induction ks with
  | nil => rfl
  | cons y ys ih =>
    simp only [List.mem_cons, not_or] at hk
    simp only [List.map_cons, PyDict.set, if_neg (Ne.symm hk.1), List.cons_append, ih hk.2]

theorem votes_eq [DecidableEq L] (ls : List L) :
    votes ls = (firstOcc ls).map (fun l => (l, ls.count l)) := by
  unfold votes
  induction ls using List.reverseRecOn with
  | nil => rfl
  | append_singleton ls x ih =>
    rw [List.foldl_append, List.foldl_cons, List.foldl_nil, ih, firstOcc_append_singleton]
    unfold vote
    have hmem : PyDict.has ((firstOcc ls).map (fun l => (l, ls.count l))) x = true ↔ x ∈ ls := by
      rw [PyDict.has_iff, PyDict.mem_keys, get?_mapKeys]
      by_cases h : x ∈ ls <;> simp [mem_firstOcc, h]
    by_cases h : x ∈ ls
    · rw [if_pos (hmem.2 h), if_pos h, get?_mapKeys, if_pos (mem_firstOcc.2 h), Option.getD_some,
        set_mapKeys_mem (nodup_firstOcc ls) _ (mem_firstOcc.2 h)]
      apply List.map_congr_left
      intro a _
      by_cases ha : a = x
      · subst ha; simp
      · rw [if_neg ha, List.count_append, List.count_singleton]
        simp [Ne.symm ha]
    · rw [if_neg (fun hc => h (hmem.1 hc)), if_neg h,
        set_mapKeys_not_mem _ (fun hc => h (mem_firstOcc.1 hc)), List.map_append]
      congr 1
      · apply List.map_congr_left
        intro a ha
        have hne : a ≠ x := fun e => h (e ▸ mem_firstOcc.1 ha)
        rw [List.count_append, List.count_singleton]
        simp [Ne.symm hne]
      · simp [List.count_append, List.count_eq_zero.2 h]

theorem best_fold (d : PyDict L Nat) (h : Nat) (b : List L) :
    d.foldl bestStep (h, b) =
      ((d.map Prod.snd).foldl max h, (if (d.map Prod.snd).foldl max h = h then b else []) ++
        (d.filter (fun p => decide (p.2 = (d.map Prod.snd).foldl max h))).map Prod.fst) := by
  have mono : ∀ (l : List Nat) (a : Nat), a ≤ l.foldl max a := by
    intro l
    induction l with
    | nil => intro a; exact Nat.le_refl a
    | cons x l ih => intro a; exact Nat.le_trans (Nat.le_max_left a x) (ih _)
  induction d generalizing h b with
  | nil => simp
  | cons p d ih =>
    rw [List.foldl_cons, List.map_cons, List.foldl_cons]
    rw [show bestStep (h, b) p = if h < p.2 then (p.2, [p.1])
      else if p.2 = h then (h, b ++ [p.1]) else (h, b) from rfl]
    by_cases h1 : h < p.2
    · rw [if_pos h1, ih, Nat.max_eq_right (Nat.le_of_lt h1)]
      have hm := mono (d.map Prod.snd) p.2
      generalize (d.map Prod.snd).foldl max p.2 = m at hm ⊢
      rw [if_neg (by omega : ¬ m = h), List.nil_append]
      congr 1
      by_cases h2 : p.2 = m
      · rw [List.filter_cons_of_pos (by simpa using h2), if_pos h2.symm]; rfl
      · rw [List.filter_cons_of_neg (by simpa using h2), if_neg (Ne.symm h2)]; rfl
    · rw [if_neg h1, Nat.max_eq_left (Nat.le_of_not_lt h1)]
      by_cases h2 : p.2 = h
      · rw [if_pos h2, ih]
        generalize (d.map Prod.snd).foldl max h = m
        congr 1
        by_cases h3 : m = h
        · rw [if_pos h3, if_pos h3, List.filter_cons_of_pos (by simp [h2, h3]), List.map_cons,
            List.append_assoc]; rfl
        · rw [if_neg h3, if_neg h3, List.filter_cons_of_neg (by simp [h2, Ne.symm h3])]
      · rw [if_neg h2, ih]
        have hm := mono (d.map Prod.snd) h
        generalize (d.map Prod.snd).foldl max h = m at hm ⊢
        congr 1
        rw [List.filter_cons_of_neg (by simp only [decide_eq_true_eq]; omega)]

private theorem le_foldl_max (l : List Nat) (h x : Nat) (hx : x ∈ l) : x ≤ l.foldl max h := by
  induction l generalizing h with
  | nil => simp at hx
  | cons y l ih =>
    have mono : ∀ (l : List Nat) (a : Nat), a ≤ l.foldl max a := by
      intro l
      induction l with
      | nil => intro a; exact Nat.le_refl a
      | cons x l ih => intro a; exact Nat.le_trans (Nat.le_max_left a x) (ih _)
    rcases List.mem_cons.1 hx with rfl | hx
    · exact Nat.le_trans (Nat.le_max_right h x) (mono l _)
    · exact ih _ hx

private theorem foldl_max_mem (l : List Nat) (h : Nat) : l.foldl max h = h ∨ l.foldl max h ∈ l := by
  induction l generalizing h with
  | nil => exact Or.inl rfl
  | cons y l ih =>
    rw [List.foldl_cons]
    rcases ih (max h y) with hc | hc
    · rw [hc]
      rcases Nat.le_total h y with hh | hh
      · rw [Nat.max_eq_right hh]; exact Or.inr (by simp)
      · rw [Nat.max_eq_left hh]; exact Or.inl rfl
    · exact Or.inr (List.mem_cons_of_mem _ hc)

/-- The labels kept are exactly the most frequent ones. -/
theorem mem_bestLabels [DecidableEq L] {ls : List L} {l : L} :
    l ∈ bestLabels (votes ls) ↔ l ∈ ls ∧ ∀ l' ∈ ls, ls.count l' ≤ ls.count l := by
  unfold bestLabels
  rw [best_fold, votes_eq]
  simp only [List.map_map]
  have hfun : (Prod.snd ∘ fun l => (l, List.count l ls)) = fun l => List.count l ls := rfl
  rw [hfun]
  have hmax : ∀ l' ∈ ls, ls.count l' ≤ ((firstOcc ls).map (fun l => ls.count l)).foldl max 0 := by
    intro l' hl'
    exact le_foldl_max _ _ _ (List.mem_map.2 ⟨l', mem_firstOcc.2 hl', rfl⟩)
  have hin := foldl_max_mem ((firstOcc ls).map (fun l => ls.count l)) 0
  generalize ((firstOcc ls).map (fun l => ls.count l)).foldl max 0 = m at hmax hin ⊢
  have hif : (if m = 0 then ([] : List L) else []) = [] := by split <;> rfl
  rw [hif, List.nil_append]
  simp only [List.mem_map, List.mem_filter, decide_eq_true_eq]
  constructor
  · rintro ⟨p, ⟨⟨a, ha, rfl⟩, hp⟩, rfl⟩
    refine ⟨mem_firstOcc.1 ha, fun l' hl' => ?_⟩
    dsimp only at hp ⊢
    rw [hp]; exact hmax l' hl'
  · rintro ⟨hl, hmost⟩
    refine ⟨(l, ls.count l), ⟨⟨l, mem_firstOcc.2 hl, rfl⟩, ?_⟩, rfl⟩
    dsimp only
    have h1 := hmax l hl
    rcases hin with h0 | h0
    · have := List.count_pos_iff.2 hl; omega
    · obtain ⟨a, ha, he⟩ := List.mem_map.1 h0
      have := hmost a (mem_firstOcc.1 ha)
      omega

private theorem exists_max {A : Type} (f : A → Nat) : ∀ {ls : List A}, ls ≠ [] →
    ∃ l ∈ ls, ∀ l' ∈ ls, f l' ≤ f l
  | [a], _ => ⟨a, by simp, by simp⟩
  | a :: b :: ls, _ => by
    obtain ⟨l, hl, hm⟩ := exists_max f (ls := b :: ls) (by simp)
    by_cases h : f l ≤ f a
    · refine ⟨a, by simp, fun l' hl' => ?_⟩
      rcases List.mem_cons.1 hl' with rfl | hl'
      · exact Nat.le_refl _
      · exact Nat.le_trans (hm l' hl') h
    · refine ⟨l, List.mem_cons_of_mem _ hl, fun l' hl' => ?_⟩
      rcases List.mem_cons.1 hl' with rfl | hl'
      · omega
      · exact hm l' hl'

private theorem exists_most [DecidableEq L] {ls : List L} (h : ls ≠ []) :
    ∃ l, l ∈ bestLabels (votes ls) := by
  obtain ⟨l, hl, hm⟩ := exists_max (fun l => ls.count l) h
  exact ⟨l, mem_bestLabels.2 ⟨hl, hm⟩⟩

theorem choose_spec [DecidableEq L] {ls : List L} (h : ls ≠ []) :
    ∃ l, choose ls = .ok l ∧ Majority ls l := by
  obtain ⟨b, hb⟩ := exists_most h
  unfold choose
  dsimp only
  by_cases h1 : 1 < (bestLabels (votes ls)).length
  · rw [if_pos h1]
    cases hf : ls.find? (fun l => decide (l ∈ bestLabels (votes ls))) with
    | none =>
      rw [List.find?_eq_none] at hf
      have := hf b (mem_bestLabels.1 hb).1
      simp [hb] at this
    | some l =>
      refine ⟨l, rfl, ?_⟩
      obtain ⟨hl, as, bs, he, hbef⟩ := List.find?_eq_some_iff_append.1 hf
      simp only [decide_eq_true_eq] at hl
      have hml := mem_bestLabels.1 hl
      refine ⟨hml.1, hml.2, fun l' hl' hc => ?_⟩
      have hbest : l' ∈ bestLabels (votes ls) := mem_bestLabels.2 ⟨hl', fun x hx => by
        rw [hc]; exact hml.2 x hx⟩
      have hna : ∀ x ∈ bestLabels (votes ls), x ∉ as := by
        intro x hx hxa
        have := hbef x hxa
        simp [hx] at this
      rw [he, List.idxOf_append_of_notMem (hna l hl), List.idxOf_append_of_notMem (hna l' hbest)]
      simp
  · rw [if_neg h1]
    have hlen : (bestLabels (votes ls)).length = 1 := by
      have := List.length_pos_of_mem hb
      omega
    obtain ⟨l, he⟩ := List.length_eq_one_iff.1 hlen
    rw [he]
    refine ⟨l, rfl, ?_⟩
    have hml := mem_bestLabels.1 (show l ∈ bestLabels (votes ls) by rw [he]; simp)
    refine ⟨hml.1, hml.2, fun l' hl' hc => ?_⟩
    have : l' ∈ bestLabels (votes ls) := mem_bestLabels.2 ⟨hl', fun x hx => by
        rw [hc]; exact hml.2 x hx⟩
    rw [he, List.mem_singleton] at this
    rw [this]

private theorem filterMap_get {ys : List L} : ∀ {nb : List Nat}, (∀ i ∈ nb, i < ys.length) →
    (nb.filterMap (ys[·]?)).map some = nb.map (ys[·]?)
  | [], _ => rfl
  | i :: nb, h => by
    have hi := h i (by simp)
    rw [List.filterMap_cons_some (List.getElem?_eq_getElem hi), List.map_cons, List.map_cons,
      filterMap_get (fun j hj => h j (List.mem_cons_of_mem _ hj)), List.getElem?_eq_getElem hi]

/-! ### C65 -/

/-- The prediction is a majority label among the `k` nearest training points (ties between equally
distant points go to the earlier one); among equally frequent labels, the one met first. -/
theorem C65_prediction [DecidableEq L] {rt : Rat → D} {le : D → D → Bool} (hle : TotalOrd le)
    (hrt : RootSpec rt le) {trainX : List (List Rat)} {trainY : List L} {test : List Rat}
    (hlen : ∀ r ∈ trainX, test.length = r.length) (hy : trainY.length = trainX.length)
    (hne : trainX ≠ []) {k : Int} (hk : 1 ≤ k) :
    ∃ (nb : List Nat) (ls : List L) (label : L), Nearest (fun i => sqDist test ((trainX[i]?).getD [])) trainX.length k.toNat nb ∧
      ls.map some = nb.map (trainY[·]?) ∧
      predict rt le k trainX trainY test = .ok label ∧ Majority ls label := by
  have hn := neighbours_spec hle hrt hlen (k := k) (by omega)
  have hb : ∀ i ∈ neighbours le k (trainX.map (distance rt test)), i < trainY.length := by
    intro i hi; rw [hy]; exact hn.bound i hi
  have hm := filterMap_get hb
  have hls : orderedLabels le k (trainX.map (distance rt test)) trainY ≠ [] := by
    intro hc
    unfold orderedLabels at hc
    rw [hc, List.map_nil] at hm
    have h0 := hn.length
    rw [List.eq_nil_of_map_eq_nil hm.symm] at h0
    have := List.length_pos_iff.2 hne
    simp only [List.length_nil] at h0
    omega
  obtain ⟨l, h1, h2⟩ := choose_spec hls
  exact ⟨_, _, l, hn, hm, h1, h2⟩

/-- `getScores` counts, for each label, the training points with that label among the same `k`
neighbours. -/
theorem C65_scores [DecidableEq L] {rt : Rat → D} {le : D → D → Bool} (hle : TotalOrd le)
    (hrt : RootSpec rt le) {trainX : List (List Rat)} {trainY : List L} {test : List Rat}
    (hlen : ∀ r ∈ trainX, test.length = r.length) (hy : trainY.length = trainX.length)
    {k : Int} (hk : 0 ≤ k) (labelVals : List L) :
    ∃ (nb : List Nat) (ls : List L), Nearest (fun i => sqDist test ((trainX[i]?).getD [])) trainX.length k.toNat nb ∧
      ls.map some = nb.map (trainY[·]?) ∧
      scores rt le k trainX trainY labelVals test = labelVals.map (fun l => ls.count l) := by
  have hn := neighbours_spec hle hrt hlen hk
  have hb : ∀ i ∈ neighbours le k (trainX.map (distance rt test)), i < trainY.length := by
    intro i hi; rw [hy]; exact hn.bound i hi
  refine ⟨_, _, hn, filterMap_get hb, ?_⟩
  unfold scores
  dsimp only
  rw [votes_eq]
  apply List.map_congr_left
  intro l _
  unfold orderedLabels
  generalize (neighbours le k (trainX.map (distance rt test))).filterMap (trainY[·]?) = ls
  have hmem : PyDict.has ((firstOcc ls).map (fun l => (l, ls.count l))) l = true ↔ l ∈ ls := by
    rw [PyDict.has_iff, PyDict.mem_keys, get?_mapKeys]
    by_cases h : l ∈ ls <;> simp [mem_firstOcc, h]
  by_cases h : l ∈ ls
  · rw [if_pos (hmem.2 h), get?_mapKeys, if_pos (mem_firstOcc.2 h), Option.getD_some]
  · rw [if_neg (fun hc => h (hmem.1 hc)), List.count_eq_zero.2 h]

private theorem sum_count [DecidableEq L] {vals : List L} (hnd : vals.Nodup) :
    ∀ {ls : List L}, (∀ l ∈ ls, l ∈ vals) → (vals.map (fun l => ls.count l)).sum = ls.length
  | [], _ => by simp
  | x :: ls, h => by
    have ih := sum_count hnd (ls := ls) (fun l hl => h l (List.mem_cons_of_mem _ hl))
    have hx := h x (by simp)
    have key : ∀ {vs : List L}, vs.Nodup → (vs.map (fun l => (x :: ls).count l)).sum =
        (vs.map (fun l => ls.count l)).sum + if x ∈ vs then 1 else 0 := by
      intro vs
      induction vs with
      | nil => simp
      | cons v vs ihv =>
        intro hv
        rw [List.nodup_cons] at hv
        rw [List.map_cons, List.sum_cons, ihv hv.2, List.map_cons, List.sum_cons, List.count_cons]
        by_cases hxv : x = v
        · subst hxv
          simp only [hv.1, if_false, beq_self_eq_true, if_true, List.mem_cons, true_or]
          omega
        · rw [show (x == v) = false by simpa using hxv]
          simp only [List.mem_cons, hxv, false_or, Bool.false_eq_true, if_false]
          omega
    rw [key hnd, if_pos hx, ih, List.length_cons]

/-- The scores of a point sum to the number of neighbours used. -/
theorem C65_scores_sum [DecidableEq L] {rt : Rat → D} {le : D → D → Bool} (hle : TotalOrd le)
    (hrt : RootSpec rt le) {trainX : List (List Rat)} {trainY : List L} {test : List Rat}
    (hlen : ∀ r ∈ trainX, test.length = r.length) (hy : trainY.length = trainX.length)
    {k : Int} (hk : 0 ≤ k) {labelVals : List L} (hnd : labelVals.Nodup)
    (hall : ∀ l ∈ trainY, l ∈ labelVals) :
    (scores rt le k trainX trainY labelVals test).sum = min k.toNat trainX.length := by
  obtain ⟨nb, ls, hn, hm, hs⟩ := C65_scores hle hrt hlen hy hk labelVals
  rw [hs, sum_count hnd]
  · have := congrArg List.length hm
    rw [List.length_map, List.length_map] at this
    rw [this, hn.length]
  · intro l hl
    have : some l ∈ ls.map some := List.mem_map.2 ⟨l, hl, rfl⟩
    rw [hm] at this
    obtain ⟨i, _, hi⟩ := List.mem_map.1 this
    exact hall l (List.mem_of_getElem? hi)

/-- The predicted label has the highest score. -/
theorem C65_prediction_has_top_score [DecidableEq L] {rt : Rat → D} {le : D → D → Bool}
    {trainX : List (List Rat)} {trainY : List L} {test : List Rat} {k : Int} {label l : L}
    (h : predict rt le k trainX trainY test = .ok label) :
    ∃ a b, scores rt le k trainX trainY [label, l] test = [a, b] ∧ b ≤ a := by
  unfold predict at h
  have hsc : ∀ v, (if PyDict.has (votes (orderedLabels le k (trainX.map (distance rt test)) trainY)) v
      then (PyDict.get? (votes (orderedLabels le k (trainX.map (distance rt test)) trainY)) v).getD 0
      else 0) = (orderedLabels le k (trainX.map (distance rt test)) trainY).count v := by
    intro v
    rw [votes_eq]
    generalize orderedLabels le k (trainX.map (distance rt test)) trainY = ls
    have hmem : PyDict.has ((firstOcc ls).map (fun l => (l, ls.count l))) v = true ↔ v ∈ ls := by
      rw [PyDict.has_iff, PyDict.mem_keys, get?_mapKeys]
      by_cases h : v ∈ ls <;> simp [mem_firstOcc, h]
    by_cases h : v ∈ ls
    · rw [if_pos (hmem.2 h), get?_mapKeys, if_pos (mem_firstOcc.2 h), Option.getD_some]
    · rw [if_neg (fun hc => h (hmem.1 hc)), List.count_eq_zero.2 h]
  refine ⟨_, _, rfl, ?_⟩
  dsimp only
  rw [hsc, hsc]
  generalize orderedLabels le k (trainX.map (distance rt test)) trainY = ls at h
  by_cases hne : ls = []
  · subst hne; simp
  · obtain ⟨l', h1, h2⟩ := choose_spec hne
    rw [h] at h1
    cases h1
    by_cases hl : l ∈ ls
    · exact h2.most l hl
    · rw [List.count_eq_zero.2 hl]; exact Nat.zero_le _

/-- With no neighbour (`k = 0`, or no training point) there is no prediction but an `IndexError`. -/
theorem C65_no_neighbour_refused [DecidableEq L] {rt : Rat → D} {le : D → D → Bool}
    {trainX : List (List Rat)} {trainY : List L} {test : List Rat} {k : Int}
    (h : k = 0 ∨ trainX = []) : predict rt le k trainX trainY test = .error .IndexError := by
  have : neighbours le k (trainX.map (distance rt test)) = [] := by
    unfold neighbours pyTake
    rcases h with rfl | rfl
    · simp
    · have : sortOrder le false ([] : List D) = [] := by simp [sortOrder]
      simp [this]
  unfold predict orderedLabels
  rw [this]
  rfl

/-- The description in the module ("if there is a tie, use k=1") is not what happens: with the labels of
the five nearest points `c, a, a, b, b` the prediction is `a`, the first of the tied labels, while
`k = 1` predicts `c`. -/
theorem C65_tie_differs_from_k1 :
    choose ["c", "a", "a", "b", "b"] = .ok "a" ∧
    choose ((["c", "a", "a", "b", "b"] : List String).take 1) = .ok "c" := by decide

/-! A case meeting the hypotheses: four points on a line, the two labels tie for `k = 2`. -/

def idLe : Rat → Rat → Bool := fun a b => decide (a ≤ b)

theorem idLe_total : TotalOrd idLe := by
  constructor <;> intros <;> simp_all [idLe] <;> grind

theorem rootSpec_id : RootSpec (fun x : Rat => x) idLe := by
  intro x y _ _; simp [idLe]

example : ∃ nb ls label,
    Nearest (fun i => sqDist [1] (([[0], [2], [5], [6]] : List (List Rat))[i]?.getD [])) 4 2 nb ∧
      ls.map some = nb.map ((["u", "v", "v", "v"] : List String)[·]?) ∧
      predict (fun x : Rat => x) idLe 2 [[0], [2], [5], [6]] ["u", "v", "v", "v"] [1] = .ok label ∧
      Majority ls label :=
  C65_prediction (trainX := [[0], [2], [5], [6]]) (trainY := ["u", "v", "v", "v"]) (k := 2)
    idLe_total rootSpec_id (by simp) rfl (by simp) (by decide)

/-! ### C66: imputation -/

/-- The value of the point in feature `j` is missing. -/
def missingAt (r : List (Option V)) (j : Nat) : Bool :=
  match r[j]? with
  | some none => true
  | _ => false

/-- The features whose value is not missing. -/
def known (r : List (Option V)) : List Nat :=
  (List.range r.length).filter (fun j => !missingAt r j)

/-- What imputation may learn from for a point and a missing feature: the points with no missing value
in the features known for this point or in the feature to fill, restricted to those features, with the
feature to fill last. -/
def material (X : List (List (Option V))) (r : List (Option V)) (j : Nat) : List (List (Option V)) :=
  (X.filter (fun r' => (known r ++ [j]).all (fun c => !missingAt r' c))).map
    (fun r' => pick r' (known r ++ [j]))

/-- The outcome of imputation: present values kept, each missing value learned. -/
structure Imputed (learn : List (List (Option V)) → List (Option V) → Res (Option V))
    (X X' : List (List (Option V))) : Prop where
  points : X'.length = X.length
  features : ∀ (i : Nat) r r', X[i]? = some r → X'[i]? = some r' → r'.length = r.length
  kept : ∀ (i : Nat) r r' (j : Nat) v, X[i]? = some r → X'[i]? = some r' → r[j]? = some (some v) →
    r'[j]? = some (some v)
  filled : ∀ (i : Nat) r r' (j : Nat), X[i]? = some r → X'[i]? = some r' → r[j]? = some none →
    ∃ v, learn (material X r j) (pick r (known r)) = .ok v ∧ r'[j]? = some v

theorem missingAt_iff {r : List (Option V)} {j : Nat} : missingAt r j = true ↔ r[j]? = some none := by
  unfold missingAt
  split <;> simp_all

private theorem mask_get (r : List (Option V)) (j : Nat) :
    ((r.map Option.isNone)[j]?).getD false = missingAt r j := by
  rw [List.getElem?_map]
  unfold missingAt
  rcases r[j]? with _ | _ | _ <;> rfl

theorem keepIdx_mask (r : List (Option V)) : keepIdx (r.map Option.isNone) = known r := by
  unfold keepIdx known
  rw [List.length_map]
  apply List.filter_congr
  intro j _
  rw [mask_get]

theorem mem_fillIdx_mask {r : List (Option V)} {j : Nat} :
    j ∈ fillIdx (r.map Option.isNone) ↔ r[j]? = some none := by
  unfold fillIdx
  rw [List.mem_filter, mask_get, missingAt_iff, List.mem_range, List.length_map]
  constructor
  · exact fun h => h.2
  · intro h
    exact ⟨(List.getElem?_eq_some_iff.1 h).1, h⟩

theorem nodup_fillIdx (fill : List Bool) : (fillIdx fill).Nodup :=
  List.nodup_range.sublist List.filter_sublist

private theorem pick_mask_any (r : List (Option V)) (cols : List Nat) :
    (pick (r.map Option.isNone) cols).any id = cols.any (missingAt r) := by
  unfold pick
  induction cols with
  | nil => rfl
  | cons c cols ih =>
    rw [List.any_cons, ← ih, List.filterMap_cons, List.getElem?_map, missingAt]
    rcases r[c]? with _ | _ | _ <;> simp

private theorem pick_filter (p : List (Option V) → Bool) (X : List (List (Option V))) :
    pick X ((List.range X.length).filter (fun i => p ((X[i]?).getD []))) = X.filter p := by
  unfold pick
  induction X using List.reverseRecOn with
  | nil => rfl
  | append_singleton X x ih =>
    rw [List.length_append, List.length_singleton, List.range_succ, List.filter_append,
      List.filterMap_append, List.filter_append]
    congr 1
    · rw [← ih]
      have hlt : ∀ i ∈ List.range X.length, (X ++ [x])[i]? = X[i]? := by
        intro i hi
        rw [List.getElem?_append_left (List.mem_range.1 hi)]
      rw [show (List.range X.length).filter (fun i => p (((X ++ [x])[i]?).getD [])) =
          (List.range X.length).filter (fun i => p ((X[i]?).getD [])) from
        List.filter_congr (fun i hi => by rw [hlt i hi])]
      apply List.filterMap_congr
      intro i hi
      exact hlt i (List.mem_filter.1 hi).1
    · by_cases h : p x
      · simp [h]
      · simp [h]

theorem trainRows_mask (X : List (List (Option V))) (cols : List Nat) :
    trainRows X (mask X) cols =
      (X.filter (fun r' => cols.all (fun c => !missingAt r' c))).map (fun r' => pick r' cols) := by
  unfold trainRows trainIdx mask
  congr 1
  rw [List.length_map]
  have hp : ∀ (i : Nat), (!(pick (((X.map (·.map Option.isNone))[i]?).getD []) cols).any id) =
      (fun r' => cols.all (fun c => !missingAt r' c)) ((X[i]?).getD []) := by
    intro i
    rw [List.getElem?_map]
    have : ((X[i]?).map (·.map Option.isNone)).getD [] = ((X[i]?).getD []).map Option.isNone := by
      rcases X[i]? with _ | _ <;> rfl
    rw [this, pick_mask_any]
    dsimp only
    rw [List.not_any_eq_all_not]
  simp only [hp]
  exact pick_filter (fun r' => cols.all (fun c => !missingAt r' c)) X

theorem imputeLoop_spec {learn : List (List (Option V)) → List (Option V) → Res (Option V)}
    {X : List (List (Option V))} {M : List (List Bool)} {pt : List (Option V)} {fill : List Bool} :
    ∀ {fts : List Nat} {new new' : List (Option V)}, fts.Nodup →
      imputeLoop learn X M pt fill fts new = .ok new' →
      new'.length = new.length ∧ (∀ (j : Nat), j ∉ fts → new'[j]? = new[j]?) ∧
      ∀ (j : Nat), j ∈ fts → j < new.length → ∃ v, impute learn X M pt fill j = .ok v ∧ new'[j]? = some v
  | [], new, new', _, h => by
    simp only [imputeLoop, Except.ok.injEq] at h
    subst h
    exact ⟨rfl, fun _ _ => rfl, fun j hj => by simp at hj⟩
  | ft :: fts, new, new', hnd, h => by
    rw [List.nodup_cons] at hnd
    rw [imputeLoop] at h
    cases hv : impute learn X M pt fill ft with
    | error e => rw [hv] at h; simp [bind, Except.bind] at h
    | ok v =>
      rw [hv] at h
      simp only [bind, Except.bind] at h
      obtain ⟨h1, h2, h3⟩ := imputeLoop_spec hnd.2 h
      rw [List.length_set] at h1 h3
      refine ⟨h1, fun j hj => ?_, fun j hj hlt => ?_⟩
      · rw [List.mem_cons, not_or] at hj
        rw [h2 j hj.2, List.getElem?_set_ne (Ne.symm hj.1)]
      · by_cases hjf : j = ft
        · subst hjf
          exact ⟨v, hv, by rw [h2 j hnd.1, List.getElem?_set_self hlt]⟩
        · exact h3 j ((List.mem_cons.1 hj).resolve_left hjf) hlt

theorem imputePoints_spec {learn : List (List (Option V)) → List (Option V) → Res (Option V)}
    {X : List (List (Option V))} {M : List (List Bool)} :
    ∀ {pts : List (List (Option V))} {fills : List (List Bool)} {out : List (List (Option V))},
      imputePoints learn X M pts fills = .ok out →
      out.length = min pts.length fills.length ∧
      ∀ (i : Nat) r' pt fill, out[i]? = some r' → pts[i]? = some pt → fills[i]? = some fill →
        imputeLoop learn X M pt fill (fillIdx fill) pt = .ok r'
  | [], fills, out, h => by
    simp only [imputePoints, Except.ok.injEq] at h
    subst h
    exact ⟨by simp, fun i r' pt fill h => by simp at h⟩
  | pt :: pts, [], out, h => by
    simp only [imputePoints, Except.ok.injEq] at h
    subst h
    exact ⟨by simp, fun i r' pt fill h => by simp at h⟩
  | pt :: pts, fill :: fills, out, h => by
    rw [imputePoints] at h
    cases hv : imputeLoop learn X M pt fill (fillIdx fill) pt with
    | error e => rw [hv] at h; simp [bind, Except.bind] at h
    | ok new =>
      cases hr : imputePoints learn X M pts fills with
      | error e => rw [hv, hr] at h; simp [bind, Except.bind] at h
      | ok rest =>
        rw [hv, hr] at h
        simp only [bind, Except.bind, pure, Except.pure, Except.ok.injEq] at h
        subst h
        obtain ⟨h1, h2⟩ := imputePoints_spec hr
        refine ⟨by simp only [List.length_cons, h1]; omega, ?_⟩
        rintro (_ | i) r' p f hr' hp hf
        · simp only [List.getElem?_cons_zero, Option.some.injEq] at hr' hp hf
          subst hr' hp hf
          exact hv
        · simp only [List.getElem?_cons_succ] at hr' hp hf
          exact h2 i r' p f hr' hp hf

/-- Imputing the data the learner was trained on: the shape and every present value are kept, and each
missing value becomes what is learned from the complete points. -/
theorem C66_imputed {learn : List (List (Option V)) → List (Option V) → Res (Option V)}
    {X X' : List (List (Option V))} (h : imputeApply learn X X = .ok X') : Imputed learn X X' := by
  obtain ⟨h1, h2⟩ := imputePoints_spec h
  have hrow : ∀ (i : Nat) r r', X[i]? = some r → X'[i]? = some r' →
      imputeLoop learn X (mask X) r (r.map Option.isNone) (fillIdx (r.map Option.isNone)) r = .ok r' := by
    intro i r r' hr hr'
    refine h2 i r' r _ hr' hr ?_
    rw [mask, List.getElem?_map, hr]; rfl
  refine ⟨by rw [h1, mask, List.length_map, Nat.min_self], fun i r r' hr hr' => ?_,
    fun i r r' j v hr hr' hj => ?_, fun i r r' j hr hr' hj => ?_⟩
  · exact (imputeLoop_spec (nodup_fillIdx _) (hrow i r r' hr hr')).1
  · rw [(imputeLoop_spec (nodup_fillIdx _) (hrow i r r' hr hr')).2.1 j, hj]
    rw [mem_fillIdx_mask, hj]
    simp
  · obtain ⟨v, hv, hg⟩ := (imputeLoop_spec (nodup_fillIdx _) (hrow i r r' hr hr')).2.2 j
      (mem_fillIdx_mask.2 hj) (List.getElem?_eq_some_iff.1 hj).1
    refine ⟨v, ?_, hg⟩
    rw [← hv, impute, keepIdx_mask, trainRows_mask]
    rfl

/-- Nothing missing is handed to the learner, and a point is never learned from itself. -/
theorem C66_material_complete {X : List (List (Option V))} {r : List (Option V)} {j : Nat}
    (hj : r[j]? = some none) :
    (∀ row ∈ material X r j, none ∉ row) ∧ none ∉ pick r (known r) ∧
    r ∉ X.filter (fun r' => (known r ++ [j]).all (fun c => !missingAt r' c)) := by
  have key : ∀ (r' : List (Option V)) (cols : List Nat), (∀ c ∈ cols, missingAt r' c = false) →
      none ∉ pick r' cols := by
    intro r' cols hc hn
    unfold pick at hn
    obtain ⟨c, hc1, hc2⟩ := List.mem_filterMap.1 hn
    have := hc c hc1
    rw [missingAt_iff.2 hc2] at this
    exact absurd this (by simp)
  refine ⟨fun row hrow => ?_, ?_, fun hc => ?_⟩
  · obtain ⟨r', hr', rfl⟩ := List.mem_map.1 hrow
    apply key
    intro c hc
    simpa using List.all_eq_true.1 (List.mem_filter.1 hr').2 c hc
  · apply key
    intro c hc
    simpa using (List.mem_filter.1 hc).2
  · have := List.all_eq_true.1 (List.mem_filter.1 hc).2 j (by simp)
    rw [missingAt_iff.2 hj] at this
    simp at this

/-- If learning always gives a (present) value, imputation succeeds and leaves nothing missing. -/
theorem C66_nothing_missing_left {learn : List (List (Option V)) → List (Option V) → Res (Option V)}
    (hl : ∀ T q, ∃ v, learn T q = .ok (some v)) (X : List (List (Option V))) :
    ∃ X', imputeApply learn X X = .ok X' ∧ ∀ r ∈ X', none ∉ r := by
  have loop : ∀ (M : List (List Bool)) pt fill fts new, ∃ new',
      imputeLoop learn X M pt fill fts new = .ok new' := by
    intro M pt fill fts
    induction fts with
    | nil => intro new; exact ⟨new, rfl⟩
    | cons ft fts ih =>
      intro new
      obtain ⟨v, hv⟩ := hl (trainRows X M (keepIdx fill ++ [ft])) (pick pt (keepIdx fill))
      obtain ⟨n, hn⟩ := ih (new.set ft (some v))
      refine ⟨n, ?_⟩
      rw [imputeLoop, impute, hv]
      simp only [bind, Except.bind]
      exact hn
  have points : ∀ (M : List (List Bool)) (pts : List (List (Option V))) (fills : List (List Bool)),
      ∃ out, imputePoints learn X M pts fills = .ok out := by
    intro M pts
    induction pts with
    | nil => intro fills; exact ⟨[], rfl⟩
    | cons pt pts ih =>
      intro fills
      cases fills with
      | nil => exact ⟨[], rfl⟩
      | cons fill fills =>
        obtain ⟨n, hn⟩ := loop M pt fill (fillIdx fill) pt
        obtain ⟨o, ho⟩ := ih fills
        refine ⟨n :: o, ?_⟩
        rw [imputePoints, hn, ho]
        rfl
  obtain ⟨X', hX⟩ := points (mask X) X (mask X)
  refine ⟨X', hX, fun r' hr' hn => ?_⟩
  have himp := C66_imputed (learn := learn) (X := X) (X' := X') hX
  obtain ⟨i, hi⟩ := List.getElem?_of_mem hr'
  obtain ⟨j, hj⟩ := List.getElem?_of_mem hn
  have hlt : i < X.length := by
    rw [← himp.points]; exact (List.getElem?_eq_some_iff.1 hi).1
  have hXi : X[i]? = some X[i] := List.getElem?_eq_getElem hlt
  have hf := himp.features i _ _ hXi hi
  have hjl : j < X[i].length := by
    rw [← hf]; exact (List.getElem?_eq_some_iff.1 hj).1
  have hXj : X[i][j]? = some X[i][j] := List.getElem?_eq_getElem hjl
  cases hc : X[i][j] with
  | none =>
    rw [hc] at hXj
    obtain ⟨v, hv, hg⟩ := himp.filled i _ _ j hXi hi hXj
    obtain ⟨w, hw⟩ := hl (material X X[i] j) (pick X[i] (known X[i]))
    rw [hw] at hv
    cases hv
    rw [hg] at hj
    simp at hj
  | some v =>
    rw [hc] at hXj
    rw [himp.kept i _ _ j v hXi hi hXj] at hj
    simp at hj

/-- Applied to data other than the training data, the positions filled are those missing in the
*training* data: a value missing in the test data but present in the training data stays missing. -/
theorem C66_missing_in_test_only_violated
    {learn : List (List (Option V)) → List (Option V) → Res (Option V)}
    {X T X' : List (List (Option V))} (h : imputeApply learn X T = .ok X') {i j : Nat}
    {r t r' : List (Option V)} (ht : T[i]? = some t) (hx : X[i]? = some r) (hr' : X'[i]? = some r')
    (hj : t[j]? = some none) (hp : r[j]? ≠ some none) : r'[j]? = some none := by
  obtain ⟨_, h2⟩ := imputePoints_spec h
  have hf : (mask X)[i]? = some (r.map Option.isNone) := by
    rw [mask, List.getElem?_map, hx]; rfl
  rw [(imputeLoop_spec (nodup_fillIdx _) (h2 i r' t _ hr' ht hf)).2.1 j
    (fun hc => hp (mem_fillIdx_mask.1 hc)), hj]

/-- … a value present in the test data but missing in the training data is replaced by a learned one … -/
theorem C66_missing_in_training_only_violated
    {learn : List (List (Option V)) → List (Option V) → Res (Option V)}
    {X T X' : List (List (Option V))} (h : imputeApply learn X T = .ok X') {i j : Nat}
    {r t r' : List (Option V)} (ht : T[i]? = some t) (hx : X[i]? = some r) (hr' : X'[i]? = some r')
    (hj : j < t.length) (hp : r[j]? = some none) : ∃ A q v, learn A q = .ok v ∧ r'[j]? = some v := by
  obtain ⟨_, h2⟩ := imputePoints_spec h
  have hf : (mask X)[i]? = some (r.map Option.isNone) := by
    rw [mask, List.getElem?_map, hx]; rfl
  obtain ⟨v, hv, hg⟩ := (imputeLoop_spec (nodup_fillIdx _) (h2 i r' t _ hr' ht hf)).2.2 j
    (mem_fillIdx_mask.2 hp) hj
  exact ⟨_, _, v, hv, hg⟩

/-- … and points beyond the number of training points are lost. -/
theorem C66_points_lost_violated
    {learn : List (List (Option V)) → List (Option V) → Res (Option V)}
    {X T X' : List (List (Option V))} (h : imputeApply learn X T = .ok X')
    (hlen : X.length < T.length) : X'.length < T.length := by
  have := (imputePoints_spec h).1
  rw [mask, List.length_map] at this
  omega

/-! Cases: a learner answering the last value of the first complete point. -/

def firstLabel (T : List (List (Option Nat))) (_ : List (Option Nat)) : Res (Option Nat) :=
  match T with
  | [] => .error .IndexError
  | r :: _ => match r.getLast? with
    | some v => .ok v
    | none => .error .IndexError

example : imputeApply firstLabel [[some 1, none], [none, some 4], [some 2, some 3]]
    [[some 1, none], [none, some 4], [some 2, some 3]] =
    .ok [[some 1, some 3], [some 2, some 4], [some 2, some 3]] := by decide

example : imputeApply firstLabel [[some 1, none], [some 2, some 3]]
    [[none, some 7], [some 2, some 3], [some 5, some 6]] =
    .ok [[none, some 3], [some 2, some 3]] := by decide

end Nimble.Knn
