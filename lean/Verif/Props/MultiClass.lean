import Verif.Model.MultiClass
import Mathlib.Data.List.Nodup
import Mathlib.Data.List.Perm.Basic
import Mathlib.Tactic.Linarith
import Mathlib.Tactic.Ring

/-!
# C44: multi-class strategies
-/

namespace Nimble.MultiClass

variable {α : Type}

/-! ### The pairs -/

theorem mem_allPairs : ∀ {l : List α} {a b : α}, (a, b) ∈ allPairs l → [a, b].Sublist l
  | [], a, b, h => by cases h
  | x :: l, a, b, h => by
    unfold allPairs at h
    rcases List.mem_append.1 h with h | h
    · obtain ⟨y, hy, he⟩ := List.mem_map.1 h
      cases he
      exact List.Sublist.cons_cons _ (List.singleton_sublist.2 hy)
    · exact List.Sublist.cons _ (mem_allPairs h)

/-- How often the two labels are trained against each other. -/
def timesTrained [DecidableEq α] (a b : α) (pairs : List (α × α)) : Nat :=
  pairs.countP (fun p => decide (p = (a, b) ∨ p = (b, a)))

theorem countP_pairs [DecidableEq α] (x a b : α) (l : List α) :
    (l.map (fun y => (x, y))).countP (fun p => decide (p = (a, b) ∨ p = (b, a)))
      = l.countP (fun y => decide ((x = a ∧ y = b) ∨ (x = b ∧ y = a))) := by
  rw [List.countP_map]
  apply List.countP_congr
  intro y _
  simp

/-- C44. Every two different labels are trained against each other exactly once, and a label never against
itself. -/
theorem C44_pairs [DecidableEq α] : ∀ {labels : List α}, labels.Nodup →
    (∀ a ∈ labels, ∀ b ∈ labels, a ≠ b → timesTrained a b (allPairs labels) = 1) ∧
    (∀ p ∈ allPairs labels, p.1 ∈ labels ∧ p.2 ∈ labels ∧ p.1 ≠ p.2)
  | [], _ => ⟨by simp, by simp [allPairs]⟩
  | x :: l, h => by
    obtain ⟨hx, hl⟩ := List.nodup_cons.1 h
    obtain ⟨ih1, ih2⟩ := C44_pairs hl
    have hzero : ∀ a b, a ∉ l ∨ b ∉ l → timesTrained a b (allPairs l) = 0 := by
      intro a b hab
      unfold timesTrained
      rw [List.countP_eq_zero]
      rintro ⟨p, q⟩ hp
      obtain ⟨h1, h2, _⟩ := ih2 _ hp
      simp only [decide_eq_true_eq, Prod.mk.injEq, not_or, not_and]
      rcases hab with hab | hab
      · exact ⟨fun e => absurd (e ▸ h1) hab, fun _ e => absurd (e ▸ h2) hab⟩
      · exact ⟨fun _ e => absurd (e ▸ h2) hab, fun e => absurd (e ▸ h1) hab⟩
    have hone : ∀ b ∈ l, l.countP (fun y => decide (y = b)) = 1 := by
      intro b hb
      have := List.count_eq_one_of_mem hl hb
      rw [List.count] at this
      rw [← this]
      apply List.countP_congr
      intro y _
      simp
    constructor
    · intro a ha0 b hb hab
      show (allPairs (x :: l)).countP _ = 1
      unfold allPairs
      rw [List.countP_append, countP_pairs]
      rcases List.mem_cons.1 ha0 with rfl | ha
      · have hbl : b ∈ l := by
          rcases List.mem_cons.1 hb with rfl | hb
          · exact absurd rfl hab
          · exact hb
        have h1 : l.countP (fun y => decide ((a = a ∧ y = b) ∨ (a = b ∧ y = a))) = 1 := by
          rw [← hone b hbl]
          apply List.countP_congr
          intro y _
          simp [hab]
        have h2 := hzero a b (Or.inl hx)
        unfold timesTrained at h2
        omega
      · rcases List.mem_cons.1 hb with rfl | hb
        · have h1 : l.countP (fun y => decide ((b = a ∧ y = b) ∨ (b = b ∧ y = a))) = 1 := by
            rw [← hone a ha]
            apply List.countP_congr
            intro y _
            have e : b ≠ a := fun e => hab e.symm
            simp [e]
          have h2 := hzero a b (Or.inr hx)
          unfold timesTrained at h2
          omega
        · have h1 : l.countP (fun y => decide ((x = a ∧ y = b) ∨ (x = b ∧ y = a))) = 0 := by
            rw [List.countP_eq_zero]
            intro y _
            have e1 : x ≠ a := fun e => hx (e ▸ ha)
            have e2 : x ≠ b := fun e => hx (e ▸ hb)
            simp [e1, e2]
          have h2 := ih1 a ha b hb hab
          unfold timesTrained at h2
          omega
    · intro p hp
      unfold allPairs at hp
      rcases List.mem_append.1 hp with hp | hp
      · obtain ⟨y, hy, rfl⟩ := List.mem_map.1 hp
        exact ⟨by simp, by simp [hy], fun e => hx (by rw [show x = y from e]; exact hy)⟩
      · obtain ⟨h1, h2, h3⟩ := ih2 p hp
        exact ⟨List.mem_cons_of_mem _ h1, List.mem_cons_of_mem _ h2, h3⟩

example : allPairs ["a", "b", "c"] = [("a", "b"), ("a", "c"), ("b", "c")] := by decide

/-! ### The training data of a pair -/

theorem labelLast_last {c : Nat} {row : List α} (h : row.length = c + 1) : labelLast c row = row := by
  unfold labelLast
  have hc : c < row.length := by omega
  rw [List.getElem?_eq_getElem hc, List.eraseIdx_eq_take_drop_succ, List.drop_eq_nil_of_le (by omega),
    List.append_nil, Option.toList_some]
  rw [← List.take_succ_eq_append_getElem hc, List.take_of_length_le (by omega)]

theorem putBack_id {named : Bool} {c : Nat} {sel : List (List α)}
    (h : named = true ∨ ∀ r ∈ sel, r.length = c + 1) : putBack named c sel = sel := by
  unfold putBack
  split
  · rfl
  · rename_i hn
    rcases h with h | h
    · exact absurd h hn
    · conv_rhs => rw [← List.map_id sel]
      exact List.map_congr_left (fun r hr => labelLast_last (h r hr))

/-- The points with one of the two labels (in feature `c`), without the label, and their labels. -/
def pointsOf [DecidableEq α] (c : Nat) (pair : α × α) (rows : List (List α)) : List (List α × Option α) :=
  (rows.filter (fun r => decide (r[c]? = some pair.1 ∨ r[c]? = some pair.2))).map
    (fun r => (r.eraseIdx c, r[c]?))

/-- C44. If the labels are the last feature (as when they are given as an object) or all features have
names, the binary problem of each pair is trained with exactly the points having one of the two labels,
each with its own label. -/
theorem C44_pair_training_partial [DecidableEq α] {named : Bool} {c : Nat} : ∀ {pairs : List (α × α)}
    {rows : List (List α)}, (named = true ∨ ∀ r ∈ rows, r.length = c + 1) → ∀ {k : Nat} {pair : α × α},
    pairs[k]? = some pair → ∃ X Y, (trainPairs named c rows pairs)[k]? = some (X, Y) ∧ X.length = Y.length ∧
      (X.zip Y).Perm (pointsOf c pair rows)
  | [], rows, _, k, pair, hk => by simp at hk
  | p :: pairs, rows, hn, k, pair, hk => by
    unfold trainPairs
    dsimp only
    have hsel : named = true ∨ ∀ r ∈ rows.filter (inPair c p), r.length = c + 1 :=
      hn.imp_right (fun h r hr => h r (List.mem_filter.1 hr).1)
    rw [putBack_id hsel]
    cases k with
    | zero =>
      obtain rfl : p = pair := by simpa using hk
      refine ⟨_, _, rfl, by simp, ?_⟩
      rw [List.zip_map']
      exact List.Perm.refl _
    | succ k =>
      have hk' : pairs[k]? = some pair := by simpa using hk
      have hperm : (rows.filter (fun r => ! inPair c p r) ++ rows.filter (inPair c p)).Perm rows :=
        (List.perm_append_comm).trans (List.filter_append_perm _ _)
      have hn' : named = true ∨ ∀ r ∈ rows.filter (fun r => ! inPair c p r) ++ rows.filter (inPair c p),
          r.length = c + 1 := hn.imp_right (fun h r hr => h r (hperm.mem_iff.1 hr))
      obtain ⟨X, Y, h1, h2, h3⟩ := C44_pair_training_partial hn' hk'
      refine ⟨X, Y, by simpa using h1, h2, h3.trans ?_⟩
      unfold pointsOf
      exact (hperm.filter _).map _

/-- Three labels, labels last. -/
example : trainPairs false 1 [[10, 0], [11, 1], [12, 2], [13, 0]] (allPairs [0, 1, 2])
    = [([[10], [11], [13]], [some 0, some 1, some 0]), ([[12], [10], [13]], [some 2, some 0, some 0]),
       ([[11], [12]], [some 1, some 2])] := by decide

/-- C44, violated. With the labels in another feature than the last and no feature names, the points of
the pairs after the first are looked for in the wrong feature: here the problem of the labels 1 and 2 is
trained without a point. -/
theorem C44_pair_training_violated :
    trainPairs false 0 [[0, 10], [1, 11], [2, 12]] (allPairs [0, 1, 2])
      = [([[10], [11]], [some 0, some 1]), ([[12]], [some 2]), ([], [])] ∧
    pointsOf 0 (1, 2) [[0, 10], [1, 11], [2, 12]] = [([11], some 1), ([12], some 2)] := by decide

/-- C44. One against all: the labels of the binary problem of a label are 1 at exactly the points with the
label. -/
theorem C44_relabel [DecidableEq α] (label : α) (ys : List α) :
    (relabel label ys).length = ys.length ∧
    ∀ (i : Nat) y, ys[i]? = some y → (relabel label ys)[i]? = some (if y = label then 1 else 0) := by
  refine ⟨by simp [relabel], fun i y h => ?_⟩
  unfold relabel
  rw [List.getElem?_map, h]
  rfl

/-! ### One against all -/

theorem gt_negInf {s : Score} : s.gt .negInf = true ↔ s ≠ .nan ∧ s ≠ .negInf := by
  cases s <;> simp [Score.gt]

theorem gt_of_not_gt {s t m : Score} (h1 : s.gt m = true) (h2 : t.gt m = false) :
    t = .nan ∨ s.gt t = true := by
  cases s <;> cases t <;> cases m <;> simp_all [Score.gt]
  linarith

theorem gt_trans {s t m : Score} (h1 : s.gt t = true) (h2 : t.gt m = true) : s.gt m = true := by
  cases s <;> cases t <;> cases m <;> simp_all [Score.gt]
  linarith

theorem not_gt_self (s : Score) : s.gt s = false := by cases s <;> simp [Score.gt]

theorem gt_asymm {s t : Score} (h : s.gt t = true) : t.gt s = false := by
  cases ht : t.gt s with
  | false => rfl
  | true => exact absurd (gt_trans h ht) (by rw [not_gt_self]; simp)

/-- The first of the best scores: a score above -inf, none is higher, and those before it are lower (or
nan). -/
structure FirstBest (scores : List Score) (i : Nat) (s : Score) : Prop where
  at_i : scores[i]? = some s
  num : s ≠ .nan ∧ s ≠ .negInf
  best : ∀ t ∈ scores, t.gt s = false
  first : ∀ (j : Nat) t, j < i → scores[j]? = some t → t = .nan ∨ s.gt t = true

theorem winLoop_spec : ∀ (l : List Score) (i : Nat) (mx : Score) (best : Option Nat),
    (winLoop l i mx best = best ∧ ∀ t ∈ l, t.gt mx = false) ∨
    ∃ k s, winLoop l i mx best = some (i + k) ∧ l[k]? = some s ∧ s.gt mx = true ∧
      (∀ t ∈ l, t.gt s = false) ∧ ∀ (j : Nat) t, j < k → l[j]? = some t → t = .nan ∨ s.gt t = true
  | [], i, mx, best => Or.inl ⟨rfl, by simp⟩
  | x :: l, i, mx, best => by
    unfold winLoop
    by_cases hx : x.gt mx = true
    · rw [if_pos hx]
      right
      rcases winLoop_spec l (i + 1) x (some i) with ⟨h1, h2⟩ | ⟨k, s, h1, h2, h3, h4, h5⟩
      · refine ⟨0, x, h1, rfl, hx, ?_, by simp⟩
        intro t ht
        rcases List.mem_cons.1 ht with rfl | ht
        · exact not_gt_self _
        · exact h2 t ht
      · refine ⟨k + 1, s, by rw [h1]; congr 1; omega, by simpa using h2, gt_trans h3 hx, ?_, ?_⟩
        · intro t ht
          rcases List.mem_cons.1 ht with rfl | ht
          · exact gt_asymm h3
          · exact h4 t ht
        · intro j t hj ht
          cases j with
          | zero =>
            obtain rfl : x = t := by simpa using ht
            exact Or.inr h3
          | succ j => exact h5 j t (by omega) (by simpa using ht)
    · have hx' : x.gt mx = false := by simpa using hx
      rw [if_neg hx]
      rcases winLoop_spec l (i + 1) mx best with ⟨h1, h2⟩ | ⟨k, s, h1, h2, h3, h4, h5⟩
      · left
        refine ⟨h1, ?_⟩
        intro t ht
        rcases List.mem_cons.1 ht with rfl | ht
        · exact hx'
        · exact h2 t ht
      · right
        refine ⟨k + 1, s, by rw [h1]; congr 1; omega, by simpa using h2, h3, ?_, ?_⟩
        · intro t ht
          rcases List.mem_cons.1 ht with rfl | ht
          · rcases gt_of_not_gt h3 hx' with rfl | h
            · cases s <;> rfl
            · exact gt_asymm h
          · exact h4 t ht
        · intro j t hj ht
          cases j with
          | zero =>
            obtain rfl : x = t := by simpa using ht
            exact gt_of_not_gt h3 hx'
          | succ j => exact h5 j t (by omega) (by simpa using ht)

theorem winningIndex_spec (scores : List Score) :
    (∀ i, winningIndex scores = some i → ∃ s, FirstBest scores i s) ∧
    (winningIndex scores = none → ∀ s ∈ scores, s = .nan ∨ s = .negInf) := by
  unfold winningIndex
  rcases winLoop_spec scores 0 .negInf none with ⟨h1, h2⟩ | ⟨k, s, h1, h2, h3, h4, h5⟩
  · rw [h1]
    refine ⟨by simp, fun _ s hs => ?_⟩
    have := h2 s hs
    by_contra hc
    rw [not_or] at hc
    rw [gt_negInf.2 hc] at this
    cases this
  · rw [h1]
    refine ⟨?_, by simp⟩
    intro i hi
    obtain rfl : k = i := by simpa using hi
    exact ⟨s, h2, gt_negInf.1 h3, h4, h5⟩

/-- C44. One against all: the label of a point is that of the first of the best scoring binary problems;
there is a label if at least one score is a number above -inf. -/
theorem C44_one_vs_all {labels : List α} {scores : List Score} (hlen : labels.length = scores.length) :
    (∀ w, oneVsAllLabel labels scores = some w →
      ∃ i s, labels[i]? = some w ∧ FirstBest scores i s) ∧
    ((∃ s ∈ scores, s ≠ .nan ∧ s ≠ .negInf) → ∃ w, oneVsAllLabel labels scores = some w) := by
  obtain ⟨h1, h2⟩ := winningIndex_spec scores
  unfold oneVsAllLabel
  constructor
  · intro w hw
    obtain ⟨i, hi, hl⟩ := Option.bind_eq_some_iff.1 hw
    obtain ⟨s, hs⟩ := h1 i hi
    exact ⟨i, s, hl, hs⟩
  · rintro ⟨s, hs, hn⟩
    cases hi : winningIndex scores with
    | none => exact absurd (h2 hi s hs) (by simp [hn])
    | some i =>
      obtain ⟨s', hs'⟩ := h1 i hi
      have hlt : i < labels.length := by
        rw [hlen]
        exact (List.getElem?_eq_some_iff.1 hs'.at_i).1
      exact ⟨labels[i], by simp [hlt]⟩

example : oneVsAllLabel ["a", "b", "c", "d"] [.nan, .fin 1, .fin 3, .fin 3] = some "c" := by decide +kernel

/-- C44, violated. If two binary problems score best, the label depends on the order in which the set of
labels is listed, which for strings is not the same from one run to the next. -/
theorem C44_one_vs_all_order_violated (a b : α) (s : Rat) :
    oneVsAllLabel [a, b] [.fin s, .fin s] = some a ∧ oneVsAllLabel [b, a] [.fin s, .fin s] = some b := by
  have : winningIndex [.fin s, .fin s] = some 0 := by
    simp [winningIndex, winLoop, Score.gt]
  unfold oneVsAllLabel
  rw [this]
  exact ⟨rfl, rfl⟩

/-! ### Dictionaries -/

section
variable {κ β : Type} [DecidableEq κ]

theorem dictSet_new {k : κ} {v : β} : ∀ {d : List (κ × β)}, k ∉ d.map Prod.fst → dictSet k v d = d ++ [(k, v)]
  | [], _ => rfl
  | (k', v') :: d, h => by
    have h1 : k' ≠ k := fun e => h (by simp [e])
    unfold dictSet
    rw [if_neg h1, dictSet_new (fun hm => h (by simp only [List.map_cons, List.mem_cons]; exact Or.inr hm))]
    rfl

theorem zip_fold (names : List κ) (vals : List β) : ∀ (d : List (κ × β)), (d.map Prod.fst ++ names).Nodup →
    names.length = vals.length →
    (names.zip vals).foldl (fun d p => dictSet p.1 p.2 d) d = d ++ names.zip vals := by
  induction names generalizing vals with
  | nil => intro d _ _; simp
  | cons n ns ih =>
    intro d hd hl
    cases vals with
    | nil => simp at hl
    | cons v vs =>
      rw [List.zip_cons_cons, List.foldl_cons]
      have hn : n ∉ d.map Prod.fst := by
        intro hm
        exact (List.nodup_append.1 hd).2.2 n hm n (by simp) rfl
      dsimp only
      rw [dictSet_new hn, ih vs (d ++ [(n, v)]) (by simpa using hd) (by simpa using hl)]
      simp

theorem confidenceScores_eq {names : List κ} {scores : List Score} (hd : names.Nodup)
    (hl : names.length = scores.length) : confidenceScores names scores = names.zip scores := by
  unfold confidenceScores
  rw [zip_fold names scores [] (by simpa using hd) hl]
  simp

theorem bestLoop_spec : ∀ (d : List (κ × Score)) (i : Nat) (mx : Score) (best : Option Nat) (lab : Option κ),
    (winLoop (d.map Prod.snd) i mx best = best ∧ bestLoop d mx lab = (lab, mx)) ∨
    ∃ k p, winLoop (d.map Prod.snd) i mx best = some (i + k) ∧ d[k]? = some p ∧
      bestLoop d mx lab = (some p.1, p.2)
  | [], i, mx, best, lab => Or.inl ⟨rfl, rfl⟩
  | (k, v) :: d, i, mx, best, lab => by
    rw [List.map_cons]
    unfold winLoop bestLoop
    by_cases hv : v.gt mx = true
    · rw [if_pos hv, if_pos hv]
      right
      rcases bestLoop_spec d (i + 1) v (some i) (some k) with ⟨h1, h2⟩ | ⟨j, p, h1, h2, h3⟩
      · exact ⟨0, (k, v), h1, rfl, h2⟩
      · exact ⟨j + 1, p, by rw [h1]; congr 1; omega, by simpa using h2, h3⟩
    · rw [if_neg hv, if_neg hv]
      rcases bestLoop_spec d (i + 1) mx best lab with h | ⟨j, p, h1, h2, h3⟩
      · exact Or.inl h
      · exact Or.inr ⟨j + 1, p, by rw [h1]; congr 1; omega, by simpa using h2, h3⟩

/-- C44. One against all, `bestScore`: the label (its text) and the score of the problem which gives the
label without scores. -/
theorem C44_one_vs_all_best {names : List κ} {scores : List Score} (hd : names.Nodup)
    (hl : names.length = scores.length) {i : Nat} (h : winningIndex scores = some i) :
    ∃ n s, names[i]? = some n ∧ scores[i]? = some s ∧ oneVsAllBest names scores = (some n, s) := by
  unfold oneVsAllBest
  rw [confidenceScores_eq hd hl]
  have hm : (names.zip scores).map Prod.snd = scores := List.map_snd_zip (by omega)
  unfold winningIndex at h
  rcases bestLoop_spec (names.zip scores) 0 .negInf none none with ⟨h1, h2⟩ | ⟨k, p, h1, h2, h3⟩
  · rw [hm, h] at h1
    cases h1
  · rw [hm, h] at h1
    obtain rfl : i = k := by simpa using h1
    obtain ⟨a1, a2⟩ := List.getElem?_zip_eq_some.1 h2
    exact ⟨p.1, p.2, a1, a2, h3⟩

theorem fillRow_spec {headers : List κ} (hh : headers.Nodup) : ∀ (d : List (κ × β)) (row : List β),
    (d.map Prod.fst).Nodup → (∀ k ∈ d.map Prod.fst, k ∈ headers) → row.length = headers.length →
    ∃ out, fillRow headers d row = .ok out ∧ out.length = headers.length ∧
      (∀ p ∈ d, out[headers.idxOf p.1]? = some p.2) ∧
      ∀ k ∈ headers, k ∉ d.map Prod.fst → out[headers.idxOf k]? = row[headers.idxOf k]?
  | [], row, _, _, hl => ⟨row, rfl, hl, by simp, fun _ _ _ => rfl⟩
  | (k, v) :: d, row, hd, hm, hl => by
    rw [List.map_cons] at hd hm
    obtain ⟨hk, hd'⟩ := List.nodup_cons.1 hd
    have hkm : k ∈ headers := hm k (by simp)
    obtain ⟨out, h1, h2, h3, h4⟩ := fillRow_spec hh d (row.set (headers.idxOf k) v) hd'
      (fun x hx => hm x (List.mem_cons_of_mem _ hx)) (by simpa using hl)
    refine ⟨out, by unfold fillRow; rw [if_pos hkm]; exact h1, h2, ?_, ?_⟩
    · intro p hp
      rcases List.mem_cons.1 hp with rfl | hp
      · rw [h4 k hkm hk]
        have : headers.idxOf k < row.length := by rw [hl]; exact List.idxOf_lt_length_of_mem hkm
        simp [this]
      · exact h3 p hp
    · intro x hx hxd
      rw [List.map_cons, List.mem_cons, not_or] at hxd
      rw [h4 x hx hxd.2, List.getElem?_set_ne]
      intro e
      exact hxd.1 ((List.idxOf_inj hkm).1 e).symm

/-- C44. One against all, `allScores`: every label has a feature, named by its text, with its score. -/
theorem C44_one_vs_all_scores (le : κ → κ → Bool) {names : List κ} {scores : List Score} (hd : names.Nodup)
    (hl : names.length = scores.length) :
    ∃ headers row, oneVsAllScores le names scores = (headers, .ok row) ∧ headers.Perm names ∧
      row.length = headers.length ∧
      ∀ (k : Nat) n s, names[k]? = some n → scores[k]? = some s → row[headers.idxOf n]? = some s := by
  have hp := List.mergeSort_perm names le
  have hf : (names.zip scores).map Prod.fst = names := List.map_fst_zip (by omega)
  obtain ⟨row, h1, h2, h3, _⟩ := fillRow_spec (hp.nodup_iff.2 hd) (names.zip scores)
    ((names.mergeSort le).map (fun _ => Score.fin 0)) (by rw [hf]; exact hd)
    (by rw [hf]; exact fun k hk => hp.mem_iff.2 hk) (by simp)
  refine ⟨names.mergeSort le, row, ?_, hp, h2, ?_⟩
  · unfold oneVsAllScores
    dsimp only
    rw [confidenceScores_eq hd hl, h1]
  · intro k n s hn hs
    exact h3 (n, s) (List.mem_of_getElem? (List.getElem?_zip_eq_some.2 ⟨hn, hs⟩))
end

example : oneVsAllScores (fun a b => decide (a ≤ b)) [3, 1, 2] [.fin 30, .fin 10, .fin 20]
    = ([1, 2, 3], .ok [.fin 10, .fin 20, .fin 30]) := by
  have h : List.mergeSort [3, 1, 2] (fun a b => decide (a ≤ b)) = [1, 2, 3] := by
    simp [List.mergeSort, List.MergeSort.Internal.splitInTwo]
  unfold oneVsAllScores
  rw [h]
  decide +kernel

end Nimble.MultiClass
