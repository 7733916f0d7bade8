import Verif.Props.MultiClass
import Mathlib.Data.List.Count
import Mathlib.Algebra.Order.BigOperators.Group.List
import Mathlib.Algebra.Order.Field.Rat

/-!
# C44: votes of pairwise problems
-/

namespace Nimble.MultiClass

variable {α : Type}

/-! ### Counting -/

section
variable {κ β : Type} [DecidableEq κ]

theorem dictGet_set_self (k : κ) (v : β) : ∀ d : List (κ × β), dictGet k (dictSet k v d) = some v
  | [] => by simp [dictSet, dictGet]
  | (k', v') :: d => by
    unfold dictSet
    split
    · rename_i h; simp [dictGet, h]
    · rename_i h; unfold dictGet; rw [if_neg h]; exact dictGet_set_self k v d

theorem dictGet_set_ne {k x : κ} (hx : x ≠ k) (v : β) : ∀ d : List (κ × β),
    dictGet x (dictSet k v d) = dictGet x d
  | [] => by simp [dictSet, dictGet, Ne.symm hx]
  | (k', v') :: d => by
    unfold dictSet
    split
    · rename_i h
      subst h
      unfold dictGet
      rw [if_neg (Ne.symm hx), if_neg (Ne.symm hx)]
    · unfold dictGet
      rw [dictGet_set_ne hx v d]

theorem dictSet_keys (k : κ) (v : β) : ∀ d : List (κ × β),
    (dictSet k v d).map Prod.fst = if k ∈ d.map Prod.fst then d.map Prod.fst else d.map Prod.fst ++ [k]
  | [] => by simp [dictSet]
  | (k', v') :: d => by
    unfold dictSet
    split
    · rename_i h; simp [h]
    · rename_i h
      rw [List.map_cons, dictSet_keys k v d, List.map_cons]
      by_cases hk : k ∈ d.map Prod.fst
      · rw [if_pos hk, if_pos (List.mem_cons_of_mem _ hk)]
      · rw [if_neg hk, if_neg (by
          rw [List.mem_cons, not_or]
          exact ⟨fun e => h e.symm, hk⟩)]
        rfl

theorem dictSet_nodup {k : κ} {v : β} {d : List (κ × β)} (h : (d.map Prod.fst).Nodup) :
    ((dictSet k v d).map Prod.fst).Nodup := by
  rw [dictSet_keys]
  split
  · exact h
  · rename_i hk
    rw [List.nodup_append]
    refine ⟨h, by simp, ?_⟩
    intro a ha b hb
    rw [List.mem_singleton.1 hb]
    exact fun e => hk (e ▸ ha)

theorem dictGet_mem {k : κ} {v : β} : ∀ {d : List (κ × β)}, (d.map Prod.fst).Nodup →
    ((k, v) ∈ d ↔ dictGet k d = some v)
  | [], _ => by simp [dictGet]
  | (k', v') :: d, h => by
    rw [List.map_cons] at h
    obtain ⟨h1, h2⟩ := List.nodup_cons.1 h
    unfold dictGet
    by_cases e : k' = k
    · subst e
      rw [if_pos rfl]
      constructor
      · intro hm
        rcases List.mem_cons.1 hm with hm | hm
        · cases hm; rfl
        · exact absurd (List.mem_map.2 ⟨(k', v), hm, rfl⟩) h1
      · intro hm
        obtain rfl := Option.some.inj hm
        simp
    · rw [if_neg e, ← dictGet_mem h2, List.mem_cons]
      constructor
      · rintro (hm | hm)
        · cases hm; exact absurd rfl e
        · exact hm
      · exact Or.inr

end

theorem count_fold [DecidableEq α] : ∀ (l : List α) (d : List (α × Nat)), (d.map Prod.fst).Nodup →
    (((l.foldl (fun d p => dictSet p ((dictGet p d).getD 0 + 1) d) d).map Prod.fst).Nodup) ∧
    ∀ x, dictGet x (l.foldl (fun d p => dictSet p ((dictGet p d).getD 0 + 1) d) d)
      = if x ∈ l then some ((dictGet x d).getD 0 + l.count x) else dictGet x d
  | [], d, h => ⟨h, by simp⟩
  | a :: l, d, h => by
    rw [List.foldl_cons]
    obtain ⟨h1, h2⟩ := count_fold l (dictSet a ((dictGet a d).getD 0 + 1) d) (dictSet_nodup h)
    refine ⟨h1, fun x => ?_⟩
    rw [h2]
    by_cases e : x = a
    · subst e
      rw [dictGet_set_self, if_pos (List.mem_cons_self)]
      simp only [Option.getD_some, List.count_cons_self]
      split
      · congr 1; omega
      · rename_i hx
        rw [List.count_eq_zero.2 hx]
    · rw [dictGet_set_ne e]
      have : (x ∈ a :: l) ↔ x ∈ l := by simp [e]
      simp only [this, List.count_cons_of_ne (fun h => e h.symm)]

/-- The votes counted. -/
theorem countWins_spec [DecidableEq α] (l : List α) :
    ((countWins l).map Prod.fst).Nodup ∧ ∀ x n, (x, n) ∈ countWins l ↔ x ∈ l ∧ n = l.count x := by
  obtain ⟨h1, h2⟩ := count_fold l [] (by simp)
  refine ⟨h1, fun x n => ?_⟩
  unfold countWins
  rw [dictGet_mem h1, h2]
  simp only [dictGet, Option.getD_none, Nat.zero_add]
  split
  · rename_i hx
    simp only [Option.some.injEq, hx, true_and]
    exact eq_comm
  · rename_i hx; simp [hx]

/-- The first of the largest. -/
theorem maxKey_go : ∀ (d : List (α × Nat)) (k : α) (n : Nat),
    ∃ pre m post, (k, n) :: d = pre ++ m :: post ∧ maxKey.go d k n = m.1 ∧ (∀ p ∈ pre, p.2 < m.2) ∧
      ∀ p ∈ post, p.2 ≤ m.2
  | [], k, n => ⟨[], (k, n), [], rfl, rfl, by simp, by simp⟩
  | (k', n') :: d, k, n => by
    unfold maxKey.go
    by_cases h : n' > n
    · rw [if_pos h]
      obtain ⟨pre, m, post, h1, h2, h3, h4⟩ := maxKey_go d k' n'
      refine ⟨(k, n) :: pre, m, post, by rw [h1]; rfl, h2, ?_, h4⟩
      intro p hp
      rcases List.mem_cons.1 hp with rfl | hp
      · have : n' ≤ m.2 := by
          cases pre with
          | nil => obtain ⟨rfl, _⟩ := List.cons.inj h1; exact Nat.le_refl _
          | cons q pre =>
            obtain ⟨rfl, _⟩ := List.cons.inj h1
            exact Nat.le_of_lt (h3 (k', n') (by simp))
        exact Nat.lt_of_lt_of_le h this
      · exact h3 p hp
    · rw [if_neg h]
      obtain ⟨pre, m, post, h1, h2, h3, h4⟩ := maxKey_go d k n
      cases pre with
      | nil =>
        obtain ⟨rfl, rfl⟩ := List.cons.inj h1
        refine ⟨[], (k, n), (k', n') :: d, rfl, h2, by simp, ?_⟩
        intro p hp
        rcases List.mem_cons.1 hp with rfl | hp
        · exact Nat.le_of_not_lt h
        · exact h4 p hp
      | cons q pre =>
        obtain ⟨rfl, rfl⟩ := List.cons.inj h1
        refine ⟨(k, n) :: (k', n') :: pre, m, post, rfl, h2, ?_, h4⟩
        intro p hp
        have hk := h3 (k, n) (by simp)
        rcases List.mem_cons.1 hp with rfl | hp
        · exact hk
        · rcases List.mem_cons.1 hp with rfl | hp
          · exact Nat.lt_of_le_of_lt (Nat.le_of_not_lt h) hk
          · exact h3 p (List.mem_cons_of_mem _ hp)

theorem maxKey_spec {d : List (α × Nat)} (h : d ≠ []) :
    ∃ pre m post, d = pre ++ m :: post ∧ maxKey d = some m.1 ∧ (∀ p ∈ pre, p.2 < m.2) ∧
      ∀ p ∈ post, p.2 ≤ m.2 := by
  obtain ⟨⟨k, n⟩, d, rfl⟩ := List.exists_cons_of_ne_nil h
  obtain ⟨pre, m, post, h1, h2, h3, h4⟩ := maxKey_go d k n
  exact ⟨pre, m, post, h1, by rw [maxKey, h2], h3, h4⟩

theorem countWins_ne [DecidableEq α] {l : List α} (h : l ≠ []) : countWins l ≠ [] := by
  obtain ⟨a, t, rfl⟩ := List.exists_cons_of_ne_nil h
  intro e
  have := ((countWins_spec (a :: t)).2 a _).2 ⟨by simp, rfl⟩
  rw [e] at this
  cases this

/-- C44. One against one: the label of a point is one of those with the most votes. -/
theorem C44_one_vs_one [DecidableEq α] {predictions : List α} (h : predictions ≠ []) :
    ∃ w, oneVsOneLabel predictions = some w ∧ w ∈ predictions ∧
      ∀ a, predictions.count a ≤ predictions.count w := by
  obtain ⟨hn, hc⟩ := countWins_spec predictions
  obtain ⟨pre, m, post, h1, h2, h3, h4⟩ := maxKey_spec (countWins_ne h)
  have hm := (hc m.1 m.2).1 (by rw [h1]; simp)
  refine ⟨m.1, h2, hm.1, fun a => ?_⟩
  by_cases ha : a ∈ predictions
  · have := (hc a _).2 ⟨ha, rfl⟩
    rw [← hm.2]
    rw [h1] at this
    rcases List.mem_append.1 this with hp | hp
    · exact Nat.le_of_lt (h3 _ hp)
    · rcases List.mem_cons.1 hp with hp | hp
      · rw [← hp]
      · exact h4 _ hp
  · rw [List.count_eq_zero.2 ha]
    exact Nat.zero_le _

/-- C44. One against one, `bestScore`: the same label as without scores, with its number of votes. -/
theorem C44_one_vs_one_best [DecidableEq α] {predictions : List α} {w : α}
    (h : oneVsOneLabel predictions = some w) :
    oneVsOneBest predictions = some (w, predictions.count w) := by
  have hne : predictions ≠ [] := by rintro rfl; cases h
  obtain ⟨hn, hc⟩ := countWins_spec predictions
  obtain ⟨pre, m, post, h1, h2, h3, h4⟩ := maxKey_spec (countWins_ne hne)
  unfold oneVsOneLabel at h
  rw [h2] at h
  obtain rfl := Option.some.inj h
  have hm := (hc m.1 m.2).1 (by rw [h1]; simp)
  have hm' : (m.1, predictions.count m.1) = m := by rw [← hm.2]
  rw [hm']
  unfold oneVsOneBest
  have hperm := List.mergeSort_perm (countWins predictions) (fun a b => decide (b.2 ≤ a.2))
  have hsort := List.pairwise_mergeSort (le := fun a b : α × Nat => decide (b.2 ≤ a.2))
    (by intro a b c; simp only [decide_eq_true_eq]; omega)
    (by intro a b; simp only [Bool.or_eq_true, decide_eq_true_eq]; omega) (countWins predictions)
  have hnd : (countWins predictions).Nodup := List.Nodup.of_map _ hn
  cases hs : (countWins predictions).mergeSort (fun a b => decide (b.2 ≤ a.2)) with
  | nil =>
    rw [hs] at hperm
    exact absurd hperm.symm.eq_nil (countWins_ne hne)
  | cons x xs =>
    rw [hs] at hperm hsort
    show some x = some m
    congr 1
    by_contra hxm
    have hmem : m ∈ x :: xs := hperm.mem_iff.2 (by rw [h1]; simp)
    have hmx : m.2 ≤ x.2 := by
      rcases List.mem_cons.1 hmem with e | e
      · exact absurd e.symm hxm
      · simpa using (List.pairwise_cons.1 hsort).1 m e
    have hxc : x ∈ countWins predictions := hperm.mem_iff.1 (by simp)
    rw [h1] at hxc
    have hxp : x ∈ post := by
      rcases List.mem_append.1 hxc with hp | hp
      · exact absurd (h3 x hp) (by omega)
      · rcases List.mem_cons.1 hp with e | e
        · exact absurd e hxm
        · exact e
    have hsub : [m, x].Sublist (countWins predictions) := by
      rw [h1]
      exact (List.Sublist.cons_cons _ (List.singleton_sublist.2 hxp)).trans (List.sublist_append_right _ _)
    have := List.pair_sublist_mergeSort (le := fun a b : α × Nat => decide (b.2 ≤ a.2))
      (by intro a b c; simp only [decide_eq_true_eq]; omega)
      (by intro a b; simp only [Bool.or_eq_true, decide_eq_true_eq]; omega)
      (by simpa using h4 x hxp) hsub
    rw [hs] at this
    have hnd' : (x :: xs).Nodup := hperm.nodup_iff.2 hnd
    cases this with
    | cons _ h' => exact (List.nodup_cons.1 hnd').1 (h'.subset (by simp))
    | cons_cons _ h' => exact hxm rfl

example : oneVsOneLabel ["b", "a", "c", "a", "c", "b"] = some "b" := by decide

theorem floatNames_ok {κ : Type} {name : α → Option κ} : ∀ {l : List α} {f : α → κ},
    (∀ a ∈ l, name a = some (f a)) → floatNames name l = .ok (l.map f)
  | [], f, _ => rfl
  | a :: l, f, h => by
    unfold floatNames
    simp only [h a (by simp), floatNames_ok (fun x hx => h x (List.mem_cons_of_mem _ hx)), bind, Except.bind,
      pure, Except.pure, List.map_cons]

theorem namedWins_ok {κ : Type} {name : α → Option κ} : ∀ {l : List (α × Nat)} {f : α → κ},
    (∀ p ∈ l, name p.1 = some (f p.1)) → namedWins name l = .ok (l.map (fun p => (f p.1, p.2)))
  | [], f, _ => rfl
  | (a, n) :: l, f, h => by
    unfold namedWins
    simp only [h (a, n) (by simp), namedWins_ok (fun x hx => h x (List.mem_cons_of_mem _ hx)), bind, Except.bind,
      pure, Except.pure, List.map_cons]

/-- C44. One against one, `allScores`, labels which are numbers: every label has a feature, with its number
of votes. -/
theorem C44_one_vs_one_scores_partial {κ : Type} [DecidableEq α] [DecidableEq κ] (le : κ → κ → Bool)
    {name : α → Option κ} {f : α → κ} {labels predictions : List α} (hd : labels.Nodup)
    (hn : ∀ a ∈ labels, name a = some (f a)) (hinj : ∀ a ∈ labels, ∀ b ∈ labels, f a = f b → a = b)
    (hp : ∀ a ∈ predictions, a ∈ labels) :
    ∃ headers row, oneVsOneScores le name labels predictions = .ok (headers, row) ∧
      headers.Perm (labels.map f) ∧ row.length = headers.length ∧
      ∀ a ∈ labels, row[headers.idxOf (f a)]? = some (predictions.count a) := by
  obtain ⟨hcn, hc⟩ := countWins_spec predictions
  have hkeys : ∀ p ∈ countWins predictions, p.1 ∈ labels := fun p hp' => hp _ ((hc p.1 p.2).1 hp').1
  have hperm := List.mergeSort_perm (labels.map f) le
  have hnd : (labels.map f).Nodup := List.Nodup.map_on (fun a ha b hb => hinj a ha b hb) hd
  have hkn : (((countWins predictions).map (fun p => (f p.1, p.2))).map Prod.fst).Nodup := by
    have : ((countWins predictions).map (fun p => (f p.1, p.2))).map Prod.fst
        = ((countWins predictions).map Prod.fst).map f := by simp [List.map_map, Function.comp_def]
    rw [this]
    refine List.Nodup.map_on ?_ hcn
    intro a ha b hb
    obtain ⟨p, hp1, rfl⟩ := List.mem_map.1 ha
    obtain ⟨q, hq1, rfl⟩ := List.mem_map.1 hb
    exact hinj _ (hkeys p hp1) _ (hkeys q hq1)
  obtain ⟨row, h1, h2, h3, h4⟩ := fillRow_spec (hperm.nodup_iff.2 hnd)
    ((countWins predictions).map (fun p => (f p.1, p.2))) (((labels.map f).mergeSort le).map (fun _ => 0)) hkn
    (by
      intro k hk
      obtain ⟨p, hp1, rfl⟩ := List.mem_map.1 hk
      obtain ⟨q, hq1, rfl⟩ := List.mem_map.1 hp1
      exact hperm.mem_iff.2 (List.mem_map.2 ⟨q.1, hkeys q hq1, rfl⟩)) (by simp)
  refine ⟨(labels.map f).mergeSort le, row, ?_, hperm, h2, ?_⟩
  · unfold oneVsOneScores
    simp only [floatNames_ok hn, namedWins_ok (fun p hp' => hn _ (hkeys p hp')), h1, bind, Except.bind, pure,
      Except.pure]
  · intro a ha
    by_cases hm : a ∈ predictions
    · have := (hc a _).2 ⟨hm, rfl⟩
      exact h3 (f a, predictions.count a) (List.mem_map.2 ⟨_, this, rfl⟩)
    · have hfa : f a ∈ (labels.map f).mergeSort le := hperm.mem_iff.2 (List.mem_map.2 ⟨a, ha, rfl⟩)
      rw [h4 (f a) hfa, List.count_eq_zero.2 hm]
      · have := List.idxOf_lt_length_of_mem hfa
        simp only [List.getElem?_map, List.getElem?_eq_getElem this, Option.map_some]
      · intro hk
        obtain ⟨p, hp1, he⟩ := List.mem_map.1 hk
        obtain ⟨q, hq1, rfl⟩ := List.mem_map.1 hp1
        have hqa := hinj _ (hkeys q hq1) a ha he
        exact hm (hqa ▸ ((hc q.1 q.2).1 hq1).1)

/-- C44, violated. `allScores` fails with a `ValueError` if a label is not a number (`float` of a text). -/
theorem C44_one_vs_one_scores_violated {κ : Type} [DecidableEq α] [DecidableEq κ] (le : κ → κ → Bool)
    {name : α → Option κ} {labels predictions : List α} (h : ∃ a ∈ labels, name a = none) :
    oneVsOneScores le name labels predictions = .error .ValueError := by
  have : ∀ l : List α, (∃ a ∈ l, name a = none) → floatNames name l = .error .ValueError := by
    intro l
    induction l with
    | nil => rintro ⟨a, ha, _⟩; cases ha
    | cons x l ih =>
      rintro ⟨a, ha, hn⟩
      unfold floatNames
      cases hx : name x with
      | none => rfl
      | some k =>
        have : ∃ a ∈ l, name a = none := by
          rcases List.mem_cons.1 ha with rfl | ha
          · rw [hn] at hx; cases hx
          · exact ⟨a, ha, hn⟩
        simp only [ih this, bind, Except.bind]
  unfold oneVsOneScores
  simp only [this labels h, bind, Except.bind]

/-- C44, violated. If the votes are tied the label depends on the order of the set of labels: each of three
labels beats one other. -/
theorem C44_one_vs_one_order_violated :
    let winner : Nat × Nat → Nat := fun p => if p = (0, 1) ∨ p = (1, 0) then 0
      else if p = (0, 2) ∨ p = (2, 0) then 2 else 1
    oneVsOneLabel ((allPairs [0, 1, 2]).map winner) = some 0 ∧
    oneVsOneLabel ((allPairs [2, 1, 0]).map winner) = some 1 := by decide

/-- C44, violated. One against one with a single label: nothing is trained (`IndexError` when the trained
learners are put together). -/
theorem C44_single_label_violated [DecidableEq α] (a : α) (named : Bool) (c : Nat) (rows : List (List α)) :
    trainPairs named c rows (allPairs [a]) = [] := rfl

/-- C44, violated. A strategy in lower case is accepted and has no effect. -/
theorem C44_strategy_violated (lower : String → String)
    (h1 : lower "onevsall" = "onevsall") (h2 : lower "onevsone" = "onevsone") :
    validStrategy lower (some "onevsall") = .ok () ∧ chooseStrategy (some "onevsall") = .default ∧
    validStrategy lower (some "onevsone") = .ok () ∧ chooseStrategy (some "onevsone") = .default := by
  refine ⟨?_, by decide, ?_, by decide⟩
  · simp [validStrategy, h1]
  · simp [validStrategy, h2]

/-! ### Scores per pair -/

theorem half_le {i n : Nat} (h : i < n) : i * (i + 1) / 2 ≤ i * n := by
  have : i * (i + 1) ≤ i * n := Nat.mul_le_mul_left i (by omega)
  omega

theorem half_succ (i : Nat) : (i + 1) * (i + 2) / 2 = i * (i + 1) / 2 + (i + 1) := by
  have : (i + 1) * (i + 2) = i * (i + 1) + 2 * (i + 1) := by ring
  rw [this]
  omega

theorem pairPosition_succ {n i j : Nat} (h1 : i < j) (h2 : j < n) :
    pairPosition (n + 1) (i + 1) (j + 1) = n + pairPosition n i j := by
  unfold pairPosition
  rw [half_succ]
  have := half_le (i := i) (n := n) (by omega)
  have e : (i + 1) * (n + 1) = i * n + n + i + 1 := by ring
  rw [e]
  omega

theorem allPairs_position : ∀ (l : List α) (i j : Nat) (a b : α), i < j → l[i]? = some a → l[j]? = some b →
    (allPairs l)[pairPosition l.length i j]? = some (a, b)
  | [], _, _, _, _, _, h, _ => by simp at h
  | x :: l, 0, j + 1, a, b, _, ha, hb => by
    obtain rfl : x = a := by simpa using ha
    have hb' : l[j]? = some b := by simpa using hb
    have hj : j < l.length := (List.getElem?_eq_some_iff.1 hb').1
    have : pairPosition (x :: l).length 0 (j + 1) = j := by simp [pairPosition]
    rw [this]
    unfold allPairs
    rw [List.getElem?_append_left (by simpa using hj), List.getElem?_map, hb']
    rfl
  | x :: l, i + 1, j + 1, a, b, hij, ha, hb => by
    have ha' : l[i]? = some a := by simpa using ha
    have hb' : l[j]? = some b := by simpa using hb
    have hj : j < l.length := (List.getElem?_eq_some_iff.1 hb').1
    rw [List.length_cons, pairPosition_succ (by omega) hj]
    unfold allPairs
    rw [List.getElem?_append_right (by simp), List.length_map, Nat.add_sub_cancel_left]
    exact allPairs_position l i j a b (by omega) ha' hb'

/-- The scores list the pairs in order: `v i j` is the score of label `i` against the later label `j`. -/
def PairScores (n : Nat) (v : Nat → Nat → Rat) (scores : List Rat) : Prop :=
  scores = (allPairs (List.range n)).map (fun p => v p.1 p.2)

theorem getScore_pair {n : Nat} {v : Nat → Nat → Rat} {scores : List Rat} (h : PairScores n v scores)
    {i j : Nat} (hij : i < j) (hj : j < n) : getScore scores (pairPosition n i j) = .ok (v i j) := by
  have := allPairs_position (List.range n) i j i j hij (List.getElem?_range (by omega))
    (List.getElem?_range hj)
  rw [List.length_range] at this
  unfold getScore
  rw [h, List.getElem?_map, this]
  rfl

/-- Label `i` wins against label `j`. -/
def Beats (v : Nat → Nat → Rat) (i j : Nat) : Prop := (i < j ∧ 0 < v i j) ∨ (j < i ∧ v j i < 0)

instance (v : Nat → Nat → Rat) (i j : Nat) : Decidable (Beats v i j) := by unfold Beats; infer_instance

theorem pairValue_spec {n : Nat} {v : Nat → Nat → Rat} {scores : List Rat} (h : PairScores n v scores)
    {i j : Nat} (hi : i < n) (hj : j < n) :
    ∃ x, pairValue scores i j n = .ok x ∧ isWin x = decide (Beats v i j) := by
  unfold pairValue
  by_cases e : i = j
  · rw [if_pos e]
    refine ⟨none, rfl, ?_⟩
    subst e
    simp [isWin, Beats]
  · rw [if_neg e]
    by_cases hl : j < i
    · rw [if_pos hl]
      simp only [getScore_pair h hl hi, bind, Except.bind, pure, Except.pure]
      refine ⟨_, rfl, ?_⟩
      unfold isWin Beats
      apply decide_eq_decide.2
      constructor
      · intro h; exact Or.inr ⟨hl, by linarith⟩
      · rintro (⟨h, _⟩ | ⟨_, h⟩)
        · omega
        · linarith
    · rw [if_neg hl]
      have hl' : i < j := by omega
      simp only [getScore_pair h hl' hj, bind, Except.bind, pure, Except.pure]
      refine ⟨_, rfl, ?_⟩
      unfold isWin Beats
      apply decide_eq_decide.2
      constructor
      · intro h; exact Or.inl ⟨hl', h⟩
      · rintro (⟨_, h⟩ | ⟨h, _⟩)
        · exact h
        · omega

theorem winsOf_spec {n : Nat} {v : Nat → Nat → Rat} {scores : List Rat} (h : PairScores n v scores) {i : Nat}
    (hi : i < n) : ∀ (js : List Nat), (∀ j ∈ js, j < n) →
    winsOf scores i n js = .ok (js.countP (fun j => decide (Beats v i j)))
  | [], _ => rfl
  | j :: js, hj => by
    obtain ⟨x, h1, h2⟩ := pairValue_spec h hi (hj j (by simp))
    unfold winsOf
    simp only [h1, winsOf_spec h hi js (fun k hk => hj k (List.mem_cons_of_mem _ hk)), bind, Except.bind, pure,
      Except.pure, h2, List.countP_cons, decide_eq_true_eq]
    congr 1
    omega

/-- The number of labels against which label `i` wins. -/
def wins (v : Nat → Nat → Rat) (n i : Nat) : Nat := (List.range n).countP (fun j => decide (Beats v i j))

theorem ratioLoop_spec {n : Nat} {v : Nat → Nat → Rat} {scores : List Rat} (h : PairScores n v scores)
    (hn : n ≠ 1) : ∀ (is : List Nat), (∀ i ∈ is, i < n) →
    ratioLoop scores n is = .ok (is.map (fun i => (wins v n i : Rat) / ((n : Rat) - 1)))
  | [], _ => rfl
  | i :: is, hi => by
    unfold ratioLoop
    simp only [winsOf_spec h (hi i (by simp)) (List.range n) (fun j hj => List.mem_range.1 hj),
      ratioLoop_spec h hn is (fun k hk => hi k (List.mem_cons_of_mem _ hk)), winRatio, if_neg hn, bind,
      Except.bind, pure, Except.pure, List.map_cons, wins]

/-- C44. A learner which scores every pair of (at least two) labels: the score of a label is the fraction of
the other labels against which it wins, read off the right pairs. -/
theorem C44_pair_ratios {n : Nat} {v : Nat → Nat → Rat} {scores : List Rat} (h : PairScores n v scores)
    (hn : 2 ≤ n) :
    ∃ out, labelRatios scores n = .ok out ∧ out.length = n ∧
      ∀ i < n, out[i]? = some ((wins v n i : Rat) / ((n : Rat) - 1)) := by
  refine ⟨_, ratioLoop_spec h (by omega) (List.range n) (fun i hi => List.mem_range.1 hi), by simp, ?_⟩
  intro i hi
  rw [List.getElem?_map, List.getElem?_range hi]
  rfl

/-- Three labels: 0 wins against 1, 2 wins against 0 and 1. -/
example : labelRatios [3, -1, -2] 3 = .ok [1 / 2, 0, 1] := by decide +kernel

theorem allPairs_length : ∀ l : List α, 2 * (allPairs l).length = l.length * (l.length - 1)
  | [] => rfl
  | a :: l => by
    unfold allPairs
    rw [List.length_append, List.length_map, Nat.mul_add, allPairs_length l, List.length_cons,
      Nat.add_sub_cancel]
    cases h : l.length with
    | zero => rfl
    | succ m => simp only [Nat.add_sub_cancel]; ring

/-- C44. The scores per label for any number of labels except three: scores of labels are left alone, those
of pairs are put together, and one score of two labels is that of the second label. -/
theorem C44_format_scores {n : Nat} (hn : 2 ≤ n) (h3 : n ≠ 3) :
    (∀ scores : List Rat, scores.length = n → formatScores n scores = .ok scores) ∧
    (∀ (v : Nat → Nat → Rat) (scores : List Rat), PairScores n v scores → n ≠ 2 →
      formatScores n scores = labelRatios scores n) ∧
    (∀ s : Rat, formatScores 2 [s] = .ok [-s, s]) := by
  refine ⟨?_, ?_, fun s => rfl⟩
  · intro scores hl
    unfold formatScores
    split
    · simp at hl; omega
    · rw [if_pos hl]
  · intro v scores hp h2
    have hlen : 2 * scores.length = n * (n - 1) := by
      have := allPairs_length (List.range n)
      rw [List.length_range] at this
      rw [hp, List.length_map, this]
    have hne : scores.length ≠ n := by
      intro e
      rw [e] at hlen
      have : n * (n - 1) = n * 2 := by omega
      have := Nat.eq_of_mul_eq_mul_left (by omega) this
      omega
    unfold formatScores
    split
    · rename_i s
      rw [if_neg h2, if_neg hne]
    · rw [if_neg hne]

/-- With three labels there are as many pairs as labels. -/
example : (allPairs (List.range 3)).length = 3 := by decide

end Nimble.MultiClass
