import Verif.Model.DetectBest
import Mathlib.Algebra.Order.Ring.Rat
import Mathlib.Tactic.Linarith
import Mathlib.Tactic.NormNum

/-!
# C81: detectBestResult finds the direction of a performance function
-/

namespace Nimble.DetectBest

/-! ## Specification -/

/-- What the random numbers of one trial with `n` points can be: labels 0 and 1 both occur; for each point the
score of the winning label is higher than that of the other one. -/
def DrawOk (n : Nat) (d : Draw) : Prop :=
  d.knowns.length = n ∧ true ∈ d.knowns ∧ false ∈ d.knowns ∧ d.best.length = n ∧ d.all.length = n ∧
    ∀ s ∈ d.all, 12 ≤ s.1 ∧ s.1 < 22 ∧ 2 ≤ s.2 ∧ s.2 < s.1

/-- A row of predicted values predicts label 1 (`true`) or 0 (`false`). -/
def Predicts : Format → List Rat → Bool → Prop
  | .labels, row, b => row = [if b then 1 else 0]
  | .bestScores, row, b => ∃ s, row = [if b then 1 else 0, s]
  | .allScores, row, b => ∃ s0 s1, row = [s0, s1] ∧ (if b then s0 < s1 else s1 < s0)

/-- `Q i` are predictions that are wrong for the first `i` points and right for all others; each step changes the
prediction of one point. -/
def FirstWrong (fmt : Format) (K : List Bool) (Q : Nat → List (List Rat)) : Prop :=
  (∀ i, i ≤ K.length → (Q i).length = K.length ∧
    ∀ (j : Nat) (b : Bool) (row : List Rat), K[j]? = some b → (Q i)[j]? = some row →
      Predicts fmt row (if j < i then !b else b)) ∧
  ∀ i j, i ≠ j → (Q (i + 1))[j]? = (Q i)[j]?

/-- The values of `f` fall (weakly) with each wrong prediction, and strictly from all right to all wrong. -/
def Falls (f : Perf) (K : List Bool) (Q : Nat → List (List Rat)) : Prop :=
  ∃ s : Nat → Rat, (∀ i, i ≤ K.length → f (K.map fun b => if b then 1 else 0) (Q i) = .ok (some (s i))) ∧
    (∀ i, i < K.length → s (i + 1) ≤ s i) ∧ s K.length < s 0

/-- The values of `f` rise (weakly) with each wrong prediction, and strictly from all right to all wrong. -/
def Rises (f : Perf) (K : List Bool) (Q : Nat → List (List Rat)) : Prop :=
  ∃ s : Nat → Rat, (∀ i, i ≤ K.length → f (K.map fun b => if b then 1 else 0) (Q i) = .ok (some (s i))) ∧
    (∀ i, i < K.length → s i ≤ s (i + 1)) ∧ s 0 < s K.length

/-! ## Lemmas -/

theorem scanMax_iff (w c : Rat) : ∀ (ss : List Rat) (p : Rat),
    scanMax w c p ss = true ↔ (∀ s ∈ ss, w ≤ s ∧ s ≤ c) ∧ List.IsChain (fun a b => b ≤ a) (p :: ss)
  | [], p => by simp [scanMax]
  | s :: ss, p => by
    unfold scanMax
    by_cases h : s < w ∨ s > c ∨ s > p
    · rw [if_pos h]
      simp only [List.mem_cons, List.isChain_cons_cons]
      constructor
      · intro h'; simp at h'
      · rintro ⟨h1, h2, _⟩
        have := h1 s (Or.inl rfl)
        rcases h with h | h | h
        · exact absurd this.1 (not_le.mpr h)
        · exact absurd this.2 (not_le.mpr h)
        · exact absurd h2 (not_le.mpr h)
    · rw [if_neg h, scanMax_iff w c ss s]
      push Not at h
      simp only [List.mem_cons, List.isChain_cons_cons]
      constructor
      · rintro ⟨h1, h2⟩
        refine ⟨?_, h.2.2, h2⟩
        rintro x (rfl | hx)
        · exact ⟨h.1, h.2.1⟩
        · exact h1 x hx
      · rintro ⟨h1, _, h2⟩
        exact ⟨fun x hx => h1 x (Or.inr hx), h2⟩

theorem scanMin_iff (w c : Rat) : ∀ (ss : List Rat) (p : Rat),
    scanMin w c p ss = true ↔ (∀ s ∈ ss, c ≤ s ∧ s ≤ w) ∧ List.IsChain (fun a b => a ≤ b) (p :: ss)
  | [], p => by simp [scanMin]
  | s :: ss, p => by
    unfold scanMin
    by_cases h : s > w ∨ s < c ∨ s < p
    · rw [if_pos h]
      simp only [List.mem_cons, List.isChain_cons_cons]
      constructor
      · intro h'; simp at h'
      · rintro ⟨h1, h2, _⟩
        have := h1 s (Or.inl rfl)
        rcases h with h | h | h
        · exact absurd this.2 (not_le.mpr h)
        · exact absurd this.1 (not_le.mpr h)
        · exact absurd h2 (not_le.mpr h)
    · rw [if_neg h, scanMin_iff w c ss s]
      push Not at h
      simp only [List.mem_cons, List.isChain_cons_cons]
      constructor
      · rintro ⟨h1, h2⟩
        refine ⟨?_, h.2.2, h2⟩
        rintro x (rfl | hx)
        · exact ⟨h.2.1, h.1⟩
        · exact h1 x hx
      · rintro ⟨h1, _, h2⟩
        exact ⟨fun x hx => h1 x (Or.inr hx), h2⟩

theorem all_some {l : List (Option Rat)} (h : ¬ l.any Option.isNone = true) :
    l = (l.filterMap id).map some := by
  induction l with
  | nil => rfl
  | cons a l ih =>
    cases a with
    | none => simp at h
    | some a =>
      simp only [List.any_cons, Option.isNone_some, Bool.false_or] at h
      simp only [List.filterMap_cons, id, List.map_cons]
      rw [← ih h]

theorem no_none (ss : List Rat) : ¬ (ss.map some).any Option.isNone = true := by
  simp

theorem filterMap_some (ss : List Rat) : (ss.map some).filterMap id = ss := by
  induction ss with
  | nil => rfl
  | cons a l ih => simp

theorem judge_some (ss : List Rat) : judge (ss.map some) =
    (if ss.getLastD 0 < ss.headD 0 then
      (if scanMax (ss.getLastD 0) (ss.headD 0) (ss.headD 0 + 1) ss then .max else .exc "non monotonic")
    else if ss.getLastD 0 > ss.headD 0 then
      (if scanMin (ss.getLastD 0) (ss.headD 0) (ss.headD 0 - 1) ss then .min else .exc "non monotonic")
    else .exc "no difference") := by
  unfold judge
  rw [if_neg (no_none ss), filterMap_some]

/-- Bounds of a falling list. -/
theorem falling_bounds : ∀ (ss : List Rat) (a : Rat), List.IsChain (fun a b => b ≤ a) (a :: ss) →
    ∀ s ∈ a :: ss, (a :: ss).getLastD 0 ≤ s ∧ s ≤ a
  | [], a, _ => by simp
  | b :: ss, a, h => by
    simp only [List.isChain_cons_cons] at h
    have ih := falling_bounds ss b h.2
    have hl : (a :: b :: ss).getLastD 0 = (b :: ss).getLastD 0 := by simp [List.getLastD_cons]
    rw [hl]
    intro s hs
    rcases List.mem_cons.mp hs with rfl | hs
    · exact ⟨le_trans (ih b (by simp)).1 h.1, le_refl _⟩
    · exact ⟨(ih s hs).1, le_trans (ih s hs).2 h.1⟩

theorem rising_bounds : ∀ (ss : List Rat) (a : Rat), List.IsChain (fun a b => a ≤ b) (a :: ss) →
    ∀ s ∈ a :: ss, a ≤ s ∧ s ≤ (a :: ss).getLastD 0
  | [], a, _ => by simp
  | b :: ss, a, h => by
    simp only [List.isChain_cons_cons] at h
    have ih := rising_bounds ss b h.2
    have hl : (a :: b :: ss).getLastD 0 = (b :: ss).getLastD 0 := by simp [List.getLastD_cons]
    rw [hl]
    intro s hs
    rcases List.mem_cons.mp hs with rfl | hs
    · exact ⟨le_refl _, le_trans h.1 (ih b (by simp)).2⟩
    · exact ⟨le_trans h.1 (ih s hs).1, (ih s hs).2⟩

theorem judge_max_iff (l : List (Option Rat)) :
    judge l = .max ↔ ∃ ss : List Rat, l = ss.map some ∧ ss.getLastD 0 < ss.headD 0 ∧
      List.IsChain (fun a b => b ≤ a) ss := by
  constructor
  · intro h
    by_cases hn : l.any Option.isNone = true
    · unfold judge at h; rw [if_pos hn] at h; cases h
    · refine ⟨l.filterMap id, all_some hn, ?_⟩
      rw [all_some hn, judge_some] at h
      generalize l.filterMap id = ss at h ⊢
      split at h
      · rename_i hlt
        split at h
        · rename_i hs
          rw [scanMax_iff] at hs
          refine ⟨hlt, ?_⟩
          cases ss with
          | nil => exact List.IsChain.nil
          | cons a t => exact (List.isChain_cons_cons.mp hs.2).2
        · cases h
      · split at h
        · split at h <;> cases h
        · cases h
  · rintro ⟨ss, rfl, hlt, hc⟩
    rw [judge_some, if_pos hlt, if_pos]
    rw [scanMax_iff]
    cases ss with
    | nil => simp at hlt
    | cons a t =>
      refine ⟨falling_bounds t a hc, ?_⟩
      rw [List.isChain_cons_cons]
      exact ⟨by simp, hc⟩

theorem judge_min_iff (l : List (Option Rat)) :
    judge l = .min ↔ ∃ ss : List Rat, l = ss.map some ∧ ss.headD 0 < ss.getLastD 0 ∧
      List.IsChain (fun a b => a ≤ b) ss := by
  constructor
  · intro h
    by_cases hn : l.any Option.isNone = true
    · unfold judge at h; rw [if_pos hn] at h; cases h
    · refine ⟨l.filterMap id, all_some hn, ?_⟩
      rw [all_some hn, judge_some] at h
      generalize l.filterMap id = ss at h ⊢
      split at h
      · split at h <;> cases h
      · split at h
        · rename_i hlt
          split at h
          · rename_i hs
            rw [scanMin_iff] at hs
            refine ⟨hlt, ?_⟩
            cases ss with
            | nil => exact List.IsChain.nil
            | cons a t => exact (List.isChain_cons_cons.mp hs.2).2
          · cases h
        · cases h
  · rintro ⟨ss, rfl, hlt, hc⟩
    rw [judge_some, if_neg (not_lt.mpr (le_of_lt hlt)), if_pos hlt, if_pos]
    rw [scanMin_iff]
    cases ss with
    | nil => simp at hlt
    | cons a t =>
      refine ⟨rising_bounds t a hc, ?_⟩
      rw [List.isChain_cons_cons]
      exact ⟨by simp, hc⟩

/-- The first `i` predictions made incorrect. -/
def mislabel (fmt : Format) (P : List (List Rat)) (i : Nat) : List (List Rat) :=
  (P.take i).map (incorrectRow fmt) ++ P.drop i

theorem makeIncorrect_mislabel (fmt : Format) (P : List (List Rat)) (i : Nat) (h : i < P.length) :
    makeIncorrect fmt (mislabel fmt P i) i = mislabel fmt P (i + 1) := by
  unfold makeIncorrect mislabel
  apply List.ext_getElem?
  intro j
  rw [List.getElem?_modify]
  simp only [List.getElem?_append, List.length_map, List.length_take, List.getElem?_map, List.getElem?_take,
    List.getElem?_drop]
  have h1 : min i P.length = i := by omega
  have h2 : min (i + 1) P.length = i + 1 := by omega
  rw [h1, h2]
  by_cases hj : j < i
  · simp [hj, show j < i + 1 by omega, show i ≠ j by omega]
  · by_cases hji : j = i
    · subst hji
      simp
    · simp only [hj, if_false, show ¬ j < i + 1 by omega, show i ≠ j by omega]
      rw [show i + (j - i) = j by omega, show i + 1 + (j - (i + 1)) = j by omega]
      simp

theorem scoreLoop_ok (f : Perf) (K : List Rat) (fmt : Format) (P : List (List Rat)) :
    ∀ (k i : Nat), i + k = P.length → ∀ l, (scoreLoop f K fmt (List.range' i k) (mislabel fmt P i) = .ok l ↔
      l.length = k ∧ ∀ (j : Nat), j < k → ∃ s, l[j]? = some s ∧ f K (mislabel fmt P (i + j + 1)) = .ok s)
  | 0, i, _, l => by
    simp only [List.range'_zero, scoreLoop]
    constructor
    · intro h; cases h; simp
    · rintro ⟨h, _⟩
      rw [List.length_eq_zero_iff.mp h]
  | k + 1, i, hik, l => by
    rw [List.range'_succ, scoreLoop]
    simp only [makeIncorrect_mislabel fmt P i (by omega), bind, Except.bind, pure, Except.pure]
    have ih := scoreLoop_ok f K fmt P k (i + 1) (by omega)
    constructor
    · intro h
      cases hf : f K (mislabel fmt P (i + 1)) with
      | error e => rw [hf] at h; cases h
      | ok s =>
        rw [hf] at h; dsimp only at h
        cases hr : scoreLoop f K fmt (List.range' (i + 1) k) (mislabel fmt P (i + 1)) with
        | error e => rw [hr] at h; cases h
        | ok r =>
          rw [hr] at h; dsimp only at h; cases h
          obtain ⟨hl, hj⟩ := (ih r).mp hr
          refine ⟨by simp [hl], ?_⟩
          intro j hjk
          cases j with
          | zero => exact ⟨s, rfl, hf⟩
          | succ j =>
            obtain ⟨t, h1, h2⟩ := hj j (by omega)
            exact ⟨t, by simpa using h1, by rw [show i + (j + 1) + 1 = i + 1 + j + 1 by omega]; exact h2⟩
    · rintro ⟨hl, hj⟩
      cases l with
      | nil => simp at hl
      | cons s r =>
        obtain ⟨t, h1, h2⟩ := hj 0 (by omega)
        have h1' : s = t := by simpa using h1
        subst h1'
        rw [show i + 0 + 1 = i + 1 by omega] at h2
        rw [h2]; dsimp only
        have : scoreLoop f K fmt (List.range' (i + 1) k) (mislabel fmt P (i + 1)) = .ok r := by
          rw [ih r]
          refine ⟨by simpa using hl, ?_⟩
          intro j hjk
          obtain ⟨t, h1, h2⟩ := hj (j + 1) (by omega)
          exact ⟨t, by simpa using h1, by rw [show i + 1 + j + 1 = i + (j + 1) + 1 by omega]; exact h2⟩
        rw [this]

theorem mislabel_zero (fmt : Format) (P : List (List Rat)) : mislabel fmt P 0 = P := by
  simp [mislabel]

theorem trialScores_ok (f : Perf) (K : List Rat) (P : List (List Rat)) (fmt : Format) (l : List (Option Rat)) :
    trialScores f K P fmt = .ok l ↔
      l.length = P.length + 1 ∧ ∀ (j : Nat), j ≤ P.length → ∃ s, l[j]? = some s ∧ f K (mislabel fmt P j) = .ok s := by
  unfold trialScores
  simp only [bind, Except.bind, pure, Except.pure]
  have hloop := scoreLoop_ok f K fmt P P.length 0 (by omega)
  rw [mislabel_zero, ← List.range_eq_range'] at hloop
  constructor
  · intro h
    cases hf : f K P with
    | error e => rw [hf] at h; cases h
    | ok s =>
      rw [hf] at h; dsimp only at h
      cases hr : scoreLoop f K fmt (List.range P.length) P with
      | error e => rw [hr] at h; cases h
      | ok r =>
        rw [hr] at h; dsimp only at h; cases h
        obtain ⟨hl, hj⟩ := (hloop r).mp hr
        refine ⟨by simp [hl], ?_⟩
        intro j hjk
        cases j with
        | zero => exact ⟨s, rfl, by rw [mislabel_zero]; exact hf⟩
        | succ j =>
          obtain ⟨t, h1, h2⟩ := hj j (by omega)
          exact ⟨t, by simpa using h1, by rw [show j + 1 = 0 + j + 1 by omega]; exact h2⟩
  · rintro ⟨hl, hj⟩
    cases l with
    | nil => simp at hl
    | cons s r =>
      obtain ⟨t, h1, h2⟩ := hj 0 (by omega)
      have h1' : s = t := by simpa using h1
      subst h1'
      rw [mislabel_zero] at h2
      rw [h2]; dsimp only
      have : scoreLoop f K fmt (List.range P.length) P = .ok r := by
        rw [hloop r]
        refine ⟨by simpa using hl, ?_⟩
        intro j hjk
        obtain ⟨t, h1, h2⟩ := hj (j + 1) (by omega)
        exact ⟨t, by simpa using h1, by rw [show 0 + j + 1 = j + 1 by omega]; exact h2⟩
      rw [this]

theorem generatePredicted_length (n : Nat) (d : Draw) (h : DrawOk n d) (fmt : Format) :
    (generatePredicted d fmt).length = d.knowns.length := by
  obtain ⟨h1, _, _, h2, h3, _⟩ := h
  cases fmt <;> simp [generatePredicted, h1, h2, h3]

theorem num_map (K : List Bool) : K.map num = K.map (fun b => if b then 1 else 0) := rfl

theorem asOutcome_eq_max {r : Except String (List (Option Rat))} :
    asOutcome r = .max ↔ ∃ l, r = .ok l ∧ judge l = .max := by
  cases r with
  | ok l => simp [asOutcome]
  | error e => simp [asOutcome]

theorem asOutcome_eq_min {r : Except String (List (Option Rat))} :
    asOutcome r = .min ↔ ∃ l, r = .ok l ∧ judge l = .min := by
  cases r with
  | ok l => simp [asOutcome]
  | error e => simp [asOutcome]

theorem getD_lt (ss : List Rat) (i : Nat) (h : i < ss.length) : ss.getD i 0 = ss[i] := by
  rw [List.getD_eq_getElem?_getD, List.getElem?_eq_getElem h]
  rfl

theorem isChain_iff (R : Rat → Rat → Prop) : ∀ ss : List Rat,
    List.IsChain R ss ↔ ∀ i, i + 1 < ss.length → R (ss.getD i 0) (ss.getD (i + 1) 0)
  | [] => by simp
  | [a] => by simp
  | a :: b :: ss => by
    rw [List.isChain_cons_cons, isChain_iff R (b :: ss)]
    constructor
    · rintro ⟨h1, h2⟩ i hi
      cases i with
      | zero => exact h1
      | succ i => exact h2 i (by simpa using hi)
    · intro h
      exact ⟨h 0 (by simp), fun i hi => h (i + 1) (by simpa using hi)⟩

theorem headD_getD (ss : List Rat) : ss.headD 0 = ss.getD 0 0 := by
  cases ss <;> simp

theorem getLastD_getD (ss : List Rat) (n : Nat) (h : ss.length = n + 1) : ss.getLastD 0 = ss.getD n 0 := by
  rw [List.getLastD_eq_getLast?, List.getLast?_eq_getElem?, h, List.getD_eq_getElem?_getD]
  simp

/-- The values of a trial in a list. -/
theorem scores_list (f : Perf) (K : List Rat) (Q : Nat → List (List Rat)) (n : Nat) (ss : List Rat)
    (hl : (ss.map some).length = n + 1)
    (h : ∀ (j : Nat), j ≤ n → ∃ s, (ss.map some)[j]? = some s ∧ f K (Q j) = .ok s) :
    ∀ i, i ≤ n → f K (Q i) = .ok (some (ss.getD i 0)) := by
  intro i hi
  obtain ⟨s, h1, h2⟩ := h i hi
  rw [List.length_map] at hl
  rw [getD_lt _ _ (by omega)]
  rw [List.getElem?_map, List.getElem?_eq_getElem (by omega)] at h1
  simp only [Option.map_some, Option.some.injEq] at h1
  rw [h2, ← h1]

theorem trial_max (f : Perf) (d : Draw) (fmt : Format)
    (hlen : (generatePredicted d fmt).length = d.knowns.length) :
    runTrial f d fmt = .max ↔ Falls f d.knowns (mislabel fmt (generatePredicted d fmt)) := by
  unfold runTrial Falls
  rw [asOutcome_eq_max, num_map]
  generalize d.knowns.map (fun b => if b then (1 : Rat) else 0) = K
  rw [← hlen]
  generalize generatePredicted d fmt = P
  constructor
  · rintro ⟨l, hl, hj⟩
    obtain ⟨ss, rfl, hlt, hc⟩ := (judge_max_iff l).mp hj
    obtain ⟨h1, h2⟩ := (trialScores_ok f K P fmt _).mp hl
    have h1' : ss.length = P.length + 1 := by simpa using h1
    refine ⟨fun i => ss.getD i 0, scores_list f K _ _ ss h1 h2, ?_, ?_⟩
    · intro i hi
      exact (isChain_iff _ ss).mp hc i (by omega)
    · rw [headD_getD, getLastD_getD ss P.length h1'] at hlt
      exact hlt
  · rintro ⟨s, h1, h2, h3⟩
    have hg : ∀ i, i ≤ P.length → ((List.range (P.length + 1)).map s).getD i 0 = s i := by
      intro i hi
      rw [getD_lt _ _ (by simp; omega)]
      simp
    refine ⟨((List.range (P.length + 1)).map s).map some, ?_, ?_⟩
    · rw [trialScores_ok]
      refine ⟨by simp, ?_⟩
      intro j hj
      refine ⟨some (s j), ?_, h1 j hj⟩
      rw [List.getElem?_map, List.getElem?_map, List.getElem?_range (by omega)]
      rfl
    · rw [judge_max_iff]
      refine ⟨_, rfl, ?_, ?_⟩
      · rw [headD_getD, getLastD_getD _ P.length (by simp), hg _ (by omega), hg _ (by omega)]
        exact h3
      · rw [isChain_iff]
        intro i hi
        simp only [List.length_map, List.length_range] at hi
        rw [hg _ (by omega), hg _ (by omega)]
        exact h2 i (by omega)

theorem trial_min (f : Perf) (d : Draw) (fmt : Format)
    (hlen : (generatePredicted d fmt).length = d.knowns.length) :
    runTrial f d fmt = .min ↔ Rises f d.knowns (mislabel fmt (generatePredicted d fmt)) := by
  unfold runTrial Rises
  rw [asOutcome_eq_min, num_map]
  generalize d.knowns.map (fun b => if b then (1 : Rat) else 0) = K
  rw [← hlen]
  generalize generatePredicted d fmt = P
  constructor
  · rintro ⟨l, hl, hj⟩
    obtain ⟨ss, rfl, hlt, hc⟩ := (judge_min_iff l).mp hj
    obtain ⟨h1, h2⟩ := (trialScores_ok f K P fmt _).mp hl
    have h1' : ss.length = P.length + 1 := by simpa using h1
    refine ⟨fun i => ss.getD i 0, scores_list f K _ _ ss h1 h2, ?_, ?_⟩
    · intro i hi
      exact (isChain_iff _ ss).mp hc i (by omega)
    · rw [headD_getD, getLastD_getD ss P.length h1'] at hlt
      exact hlt
  · rintro ⟨s, h1, h2, h3⟩
    have hg : ∀ i, i ≤ P.length → ((List.range (P.length + 1)).map s).getD i 0 = s i := by
      intro i hi
      rw [getD_lt _ _ (by simp; omega)]
      simp
    refine ⟨((List.range (P.length + 1)).map s).map some, ?_, ?_⟩
    · rw [trialScores_ok]
      refine ⟨by simp, ?_⟩
      intro j hj
      refine ⟨some (s j), ?_, h1 j hj⟩
      rw [List.getElem?_map, List.getElem?_map, List.getElem?_range (by omega)]
      rfl
    · rw [judge_min_iff]
      refine ⟨_, rfl, ?_, ?_⟩
      · rw [headD_getD, getLastD_getD _ P.length (by simp), hg _ (by omega), hg _ (by omega)]
        exact h3
      · rw [isChain_iff]
        intro i hi
        simp only [List.length_map, List.length_range] at hi
        rw [hg _ (by omega), hg _ (by omega)]
        exact h2 i (by omega)

theorem fabs_num (b : Bool) : fabs (num b - 1) = if !b then 1 else 0 := by
  cases b <;> decide +kernel

/-- Row `j` of the predictions as generated predicts the known label, and made incorrect the other one. -/
theorem generated_row (n : Nat) (d : Draw) (h : DrawOk n d) (fmt : Format) (j : Nat) (b : Bool)
    (hb : d.knowns[j]? = some b) :
    ∃ row, (generatePredicted d fmt)[j]? = some row ∧ Predicts fmt row b ∧ Predicts fmt (incorrectRow fmt row) (!b) := by
  obtain ⟨h1, _, _, h2, h3, h4⟩ := h
  have hj : j < n := by
    have := (List.getElem?_eq_some_iff.mp hb).1
    omega
  cases fmt with
  | labels =>
    refine ⟨[num b], by simp [generatePredicted, hb], rfl, ?_⟩
    simp only [incorrectRow, Predicts, fabs_num]
  | bestScores =>
    have hs : d.best[j]? = some (d.best[j]'(by omega)) := List.getElem?_eq_getElem (by omega)
    refine ⟨[num b, num (d.best[j]'(by omega))], ?_, ⟨_, rfl⟩, ?_⟩
    · simp only [generatePredicted, List.getElem?_zipWith, hb, hs]
    · simp only [incorrectRow, Predicts, fabs_num]
      exact ⟨_, rfl⟩
  | allScores =>
    have hs : d.all[j]? = some (d.all[j]'(by omega)) := List.getElem?_eq_getElem (by omega)
    have hlt := (h4 _ (List.getElem_mem (h := (by omega : j < d.all.length)))).2.2.2
    generalize d.all[j]'(by omega) = s at hs hlt
    have hlt' : (s.2 : Rat) < (s.1 : Rat) := by exact_mod_cast hlt
    cases b with
    | true =>
      refine ⟨[(s.2 : Rat), (s.1 : Rat)], ?_, ⟨_, _, rfl, ?_⟩, ⟨_, _, rfl, ?_⟩⟩
      · simp only [generatePredicted, List.getElem?_zipWith, hb, hs]; rfl
      · simpa using hlt'
      · simpa using hlt'
    | false =>
      refine ⟨[(s.1 : Rat), (s.2 : Rat)], ?_, ⟨_, _, rfl, ?_⟩, ⟨_, _, rfl, ?_⟩⟩
      · simp only [generatePredicted, List.getElem?_zipWith, hb, hs]; rfl
      · simpa using hlt'
      · simpa using hlt'

theorem mislabel_get (fmt : Format) (P : List (List Rat)) (i j : Nat) :
    (mislabel fmt P i)[j]? = P[j]?.map (fun row => if j < i then incorrectRow fmt row else row) := by
  unfold mislabel
  simp only [List.getElem?_append, List.length_map, List.length_take, List.getElem?_map, List.getElem?_take,
    List.getElem?_drop]
  by_cases hj : j < i
  · by_cases hp : j < P.length
    · simp [hj, hp]
    · have h0 : P[j]? = none := List.getElem?_eq_none (by omega)
      simp [hj, hp, h0]
      omega
  · simp only [hj, if_false]
    by_cases hp : j < P.length
    · rw [if_neg (by omega)]
      rw [show i + (j - min i P.length) = j by omega]
      simp
    · rw [if_neg (by omega)]
      rw [List.getElem?_eq_none (by omega), List.getElem?_eq_none (by omega)]
      rfl

theorem mislabel_firstWrong (d : Draw) (fmt : Format) (hlen : (generatePredicted d fmt).length = d.knowns.length)
    (hrow : ∀ (j : Nat) (b : Bool), d.knowns[j]? = some b → ∃ row, (generatePredicted d fmt)[j]? = some row ∧
      Predicts fmt row b ∧ Predicts fmt (incorrectRow fmt row) (!b)) :
    FirstWrong fmt d.knowns (mislabel fmt (generatePredicted d fmt)) := by
  constructor
  · intro i hi
    refine ⟨by simp [mislabel, hlen]; omega, ?_⟩
    intro j b row hb hr
    obtain ⟨r, h1, h2, h3⟩ := hrow j b hb
    rw [mislabel_get, h1] at hr
    simp only [Option.map_some, Option.some.injEq] at hr
    subst hr
    by_cases hj : j < i
    · simpa [hj] using h3
    · simpa [hj] using h2
  · intro i j hij
    rw [mislabel_get, mislabel_get]
    by_cases hj : j < i
    · simp [hj, show j < i + 1 by omega]
    · simp [hj, show ¬ j < i + 1 by omega]

/-- The trials with only zeros or only ones are trials of the same kind. -/
theorem uniform_row (b0 : Bool) (n : Nat) (j : Nat) (b : Bool) (hb : (uniformDraw b0 n).knowns[j]? = some b) :
    ∃ row, (generatePredicted (uniformDraw b0 n) .labels)[j]? = some row ∧ Predicts .labels row b ∧
      Predicts .labels (incorrectRow .labels row) (!b) := by
  refine ⟨[num b], by simp [generatePredicted, hb], rfl, ?_⟩
  simp only [incorrectRow, Predicts, fabs_num]

/-- Each trial runs the function on predictions of which none, the first, the first two, … all are wrong; its result
is 'max' exactly when the values fall with the wrong predictions (strictly from first to last), 'min' exactly when they
rise. -/
theorem C81_trial (n : Nat) (d : Draw) (h : DrawOk n d) (fmt : Format) :
    ∃ Q, FirstWrong fmt d.knowns Q ∧ ∀ f,
      (runTrial f d fmt = .max ↔ Falls f d.knowns Q) ∧ (runTrial f d fmt = .min ↔ Rises f d.knowns Q) := by
  have hlen := generatePredicted_length n d h fmt
  exact ⟨_, mislabel_firstWrong d fmt hlen (fun j b => generated_row n d h fmt j b),
    fun f => ⟨trial_max f d fmt hlen, trial_min f d fmt hlen⟩⟩

/-- The same for the trials with equal labels. -/
theorem uniform_trial (b : Bool) (n : Nat) :
    ∃ Q, FirstWrong .labels (List.replicate n b) Q ∧ ∀ f,
      (runTrial f (uniformDraw b n) .labels = .max ↔ Falls f (List.replicate n b) Q) ∧
      (runTrial f (uniformDraw b n) .labels = .min ↔ Rises f (List.replicate n b) Q) := by
  have hlen : (generatePredicted (uniformDraw b n) .labels).length = (uniformDraw b n).knowns.length := by
    simp [generatePredicted]
  exact ⟨_, mislabel_firstWrong _ .labels hlen (uniform_row b n),
    fun f => ⟨trial_max f _ .labels hlen, trial_min f _ .labels hlen⟩⟩

/-! ## A declared direction -/

/-- A function with the attribute `optimal` 'min' or 'max' is not tried. -/
theorem C81_declared (f : Perf) (D : Format → FormatDraws) :
    detectBestResult (some "min") f D = .ok .min ∧ detectBestResult (some "max") f D = .ok .max := by
  constructor <;> simp [detectBestResult]

/-! ## The returned direction -/

/-- The random numbers of all trials. -/
def DrawsOk (D : Format → FormatDraws) : Prop :=
  ∀ fmt, DrawOk 10 (D fmt).main ∧ (∀ d ∈ (D fmt).more, DrawOk 10 d) ∧ 10 ≤ (D fmt).more.length

theorem differs_valid {a b : Outcome} (hb : b.valid = true) : differs a b = false ↔ a = b := by
  cases b <;> cases a <;> simp_all [differs, Outcome.valid]

/-- After the first inconsistent trial the result stays an exception. -/
theorem confidence_exc (f : Perf) (fmt : Format) : ∀ (ds : List Draw) (m : String),
    (confidence f fmt false (.exc m) ds).valid = false
  | [], m => rfl
  | d :: ds, m => by
    unfold confidence
    dsimp only
    split
    · simp only [Bool.false_eq_true, if_false]
      split
      · exact confidence_exc f fmt ds _
      · rename_i hv; simpa using hv
    · exact confidence_exc f fmt ds m

theorem confidence_valid (f : Perf) (fmt : Format) (r : Outcome) (hr : r.valid = true) : ∀ (ds : List Draw),
    (confidence f fmt false r ds).valid = true →
      confidence f fmt false r ds = r ∧ ∀ d ∈ ds, runTrial f d fmt = r
  | [], _ => ⟨rfl, by simp⟩
  | d :: ds, h => by
    unfold confidence at h ⊢
    dsimp only at h ⊢
    by_cases hd : differs (runTrial f d fmt) r = true
    · rw [if_pos hd] at h
      simp only [Bool.false_eq_true, if_false] at h
      split at h
      · rw [confidence_exc] at h; cases h
      · rename_i hv; exact absurd h hv
    · rw [if_neg hd] at h ⊢
      have he := (differs_valid hr).mp (by simpa using hd)
      obtain ⟨h1, h2⟩ := confidence_valid f fmt r hr ds h
      refine ⟨h1, ?_⟩
      intro d' hd'
      rcases List.mem_cons.mp hd' with rfl | hd'
      · exact he
      · exact h2 d' hd'

theorem confidence_one (f : Perf) (fmt : Format) (r : Outcome) (ds : List Draw) (h : ds.length ≤ 1) :
    confidence f fmt true r ds = r := by
  match ds, h with
  | [], _ => rfl
  | [d], _ =>
    unfold confidence
    dsimp only
    split <;> rfl
  | _ :: _ :: _, h => simp at h

theorem confidence_all (f : Perf) (fmt : Format) (r : Outcome) (hr : r.valid = true) (b : Bool) : ∀ (ds : List Draw),
    (∀ d ∈ ds, runTrial f d fmt = r) → confidence f fmt b r ds = r
  | [], _ => by unfold confidence; rfl
  | d :: ds, h => by
    unfold confidence
    dsimp only
    rw [if_neg (by rw [h d (by simp), (differs_valid hr).mpr rfl]; simp)]
    exact confidence_all f fmt r hr b ds (fun d' hd' => h d' (by simp [hd']))

theorem simpler_cases (f : Perf) (n : Nat) (r : Outcome) : simpler f n r = r ∨ (simpler f n r).valid = false := by
  unfold simpler
  dsimp only
  split
  · exact Or.inr rfl
  · exact Or.inl rfl

theorem formatResult_labels (f : Perf) (n : Nat) (D : FormatDraws) : formatResult f n .labels D =
    if (runTrial f D.main .labels).valid then simpler f n (runTrial f D.main .labels)
    else runTrial f D.main .labels := by
  unfold formatResult
  dsimp only
  split
  · rw [if_pos rfl]
    simp only [decide_true]
    rw [confidence_one]
    rw [List.length_take]
    exact Nat.min_le_left _ _
  · rfl

/-- A valid result of a format is that of its main trial, and for formats with scores of all its trials. -/
theorem formatResult_valid (f : Perf) (n : Nat) (fmt : Format) (D : FormatDraws)
    (h : (formatResult f n fmt D).valid = true) :
    formatResult f n fmt D = runTrial f D.main fmt ∧
      (fmt ≠ .labels → ∀ d ∈ D.more.take 10, runTrial f d fmt = runTrial f D.main fmt) ∧
      (fmt = .labels → simpler f n (runTrial f D.main fmt) = runTrial f D.main fmt) := by
  cases fmt with
  | labels =>
    rw [formatResult_labels] at h ⊢
    split
    · rename_i hv
      rw [if_pos hv] at h
      rcases simpler_cases f n (runTrial f D.main .labels) with h1 | h1
      · exact ⟨h1, fun h => absurd rfl h, fun _ => h1⟩
      · rw [h1] at h; cases h
    · rename_i hv
      rw [if_neg hv] at h
      exact absurd h hv
  | bestScores =>
    unfold formatResult at h ⊢
    dsimp only at h ⊢
    split
    · rename_i hv
      rw [if_pos hv, if_neg (by simp)] at h
      simp only [reduceCtorEq, decide_false, confidenceTrials] at h ⊢
      obtain ⟨h1, h2⟩ := confidence_valid f .bestScores _ hv _ h
      exact ⟨h1, fun _ => h2, fun h => h.elim⟩
    · rename_i hv
      rw [if_neg hv] at h
      exact absurd h hv
  | allScores =>
    unfold formatResult at h ⊢
    dsimp only at h ⊢
    split
    · rename_i hv
      rw [if_pos hv, if_neg (by simp)] at h
      simp only [reduceCtorEq, decide_false, confidenceTrials] at h ⊢
      obtain ⟨h1, h2⟩ := confidence_valid f .allScores _ hv _ h
      exact ⟨h1, fun _ => h2, fun h => h.elim⟩
    · rename_i hv
      rw [if_neg hv] at h
      exact absurd h hv

theorem pickBest_cons (o : Option Outcome) (r : Outcome) (rs : List Outcome) : pickBest o (r :: rs) =
    if r.valid then
      if o.isSome && differs r (o.getD r) then .error .InvalidArgumentValue else pickBest (some r) rs
    else pickBest o rs := by
  cases o <;> rfl

theorem pickBest_ok (b : Outcome) : ∀ (rs : List Outcome) (o : Option Outcome), (∀ a, o = some a → a.valid = true) →
    (pickBest o rs = .ok b ↔
      (∀ a, o = some a → a = b) ∧ (∀ r ∈ rs, r.valid = true → r = b) ∧
      (o.isSome = true ∨ ∃ r ∈ rs, r.valid = true))
  | [], none, _ => by simp [pickBest]
  | [], some a, _ => by simp [pickBest]
  | r :: rs, o, ho => by
    rw [pickBest_cons]
    by_cases hv : r.valid = true
    · rw [if_pos hv]
      cases o with
      | none =>
        simp only [Option.isSome_none, Bool.false_and, Bool.false_eq_true, if_false]
        rw [pickBest_ok b rs (some r) (by intro a ha; cases ha; exact hv)]
        simp only [Option.some.injEq, forall_eq', Option.isSome_some, true_or, and_true, List.mem_cons,
          forall_eq_or_imp, reduceCtorEq, false_implies, implies_true, true_and, Option.isSome_none,
          Bool.false_eq_true, false_or]
        constructor
        · rintro ⟨h1, h2⟩
          exact ⟨⟨fun _ => h1, h2⟩, r, Or.inl rfl, hv⟩
        · rintro ⟨⟨h1, h2⟩, _⟩
          exact ⟨h1 hv, h2⟩
      | some a =>
        have ha := ho a rfl
        simp only [Option.isSome_some, Option.getD_some, Bool.true_and]
        by_cases hd : differs r a = true
        · rw [if_pos hd]
          have hne : r ≠ a := fun h => by rw [(differs_valid ha).mpr h] at hd; cases hd
          constructor
          · intro h; cases h
          · rintro ⟨h1, h2, _⟩
            exact absurd ((h2 r (by simp) hv).trans (h1 a rfl).symm) hne
        · rw [if_neg hd]
          have he : r = a := (differs_valid ha).mp (by simpa using hd)
          subst he
          rw [pickBest_ok b rs (some r) (by intro a ha; cases ha; exact hv)]
          simp only [Option.some.injEq, forall_eq', Option.isSome_some, true_or, and_true, List.mem_cons,
            forall_eq_or_imp]
          constructor
          · rintro ⟨h1, h2⟩
            exact ⟨h1, fun _ => h1, h2⟩
          · rintro ⟨h1, _, h2⟩
            exact ⟨h1, h2⟩
    · rw [if_neg hv, pickBest_ok b rs o ho]
      have hv' : r.valid = false := by simpa using hv
      simp [hv']

theorem detect_ok (f : Perf) (D : Format → FormatDraws) (b : Outcome) :
    detectBestResult none f D = .ok b ↔
      (∀ fmt, (formatResult f 10 fmt (D fmt)).valid = true → formatResult f 10 fmt (D fmt) = b) ∧
      ∃ fmt, (formatResult f 10 fmt (D fmt)).valid = true := by
  unfold detectBestResult
  rw [if_neg (by simp), if_neg (by simp), pickBest_ok b _ none (by simp)]
  simp only [reduceCtorEq, false_implies, implies_true, true_and, Option.isSome_none, Bool.false_eq_true, false_or,
    List.map_cons, List.map_nil, List.mem_cons, List.not_mem_nil, or_false, forall_eq_or_imp, forall_eq,
    exists_eq_or_imp, exists_eq_left]
  constructor
  · rintro ⟨⟨h1, h2, h3⟩, h4⟩
    refine ⟨?_, ?_⟩
    · intro fmt; cases fmt <;> assumption
    · rcases h4 with h | h | h
      · exact ⟨_, h⟩
      · exact ⟨_, h⟩
      · exact ⟨_, h⟩
  · rintro ⟨h1, fmt, h2⟩
    refine ⟨⟨h1 _, h1 _, h1 _⟩, ?_⟩
    cases fmt <;> simp [h2]

theorem valid_iff (o : Outcome) : o.valid = true ↔ o = .max ∨ o = .min := by
  cases o <;> simp [Outcome.valid]

theorem drawOk_of_mem {D : Format → FormatDraws} (hD : DrawsOk D) (fmt : Format) (d : Draw)
    (h : d ∈ (D fmt).more.take 10) : DrawOk 10 d :=
  (hD fmt).2.1 d (List.mem_of_mem_take h)

/-- A format all of whose trials agree has their result. -/
theorem formatResult_all (f : Perf) (D : Format → FormatDraws) (hD : DrawsOk D) (fmt : Format) (r : Outcome)
    (hv : r.valid = true) (hr : ∀ d, DrawOk 10 d → runTrial f d fmt = r)
    (hu : fmt = .labels → ∀ b, runTrial f (uniformDraw b 10) .labels = r) :
    formatResult f 10 fmt (D fmt) = r := by
  have hmain := hr _ (hD fmt).1
  cases fmt with
  | labels =>
    rw [formatResult_labels, hmain, if_pos hv]
    have hd : differs r r = false := (differs_valid hv).mpr rfl
    simp [simpler, hu rfl, hd]
  | bestScores =>
    unfold formatResult
    dsimp only
    rw [hmain, if_pos hv, if_neg (by simp)]
    exact confidence_all f _ _ hv _ _ (fun d hd => hr d (drawOk_of_mem hD _ d hd))
  | allScores =>
    unfold formatResult
    dsimp only
    rw [hmain, if_pos hv, if_neg (by simp)]
    exact confidence_all f _ _ hv _ _ (fun d hd => hr d (drawOk_of_mem hD _ d hd))

/-- If 'max' is returned, the values fall with the wrong predictions in the main trial of some format, and then in all
trials of that format if it has scores; and in no format do all trials say the opposite. -/
theorem C81_returned_max (f : Perf) (D : Format → FormatDraws) (hD : DrawsOk D)
    (h : detectBestResult none f D = .ok .max) :
    (∃ fmt Q, FirstWrong fmt (D fmt).main.knowns Q ∧ Falls f (D fmt).main.knowns Q ∧
      (fmt ≠ .labels → ∀ d ∈ (D fmt).more.take 10, ∃ Q', FirstWrong fmt d.knowns Q' ∧ Falls f d.knowns Q')) ∧
    ∀ fmt, ¬ ∀ K : List Bool, K.length = 10 → ∀ Q, FirstWrong fmt K Q → Rises f K Q := by
  rw [detect_ok] at h
  obtain ⟨h1, fmt, h2⟩ := h
  constructor
  · have h3 := h1 fmt h2
    obtain ⟨h4, h5, _⟩ := formatResult_valid f 10 fmt (D fmt) h2
    rw [h3] at h4
    obtain ⟨Q, hQ, hf⟩ := C81_trial 10 (D fmt).main (hD fmt).1 fmt
    refine ⟨fmt, Q, hQ, (hf f).1.mp h4.symm, ?_⟩
    intro hne d hd
    obtain ⟨Q', hQ', hf'⟩ := C81_trial 10 d (drawOk_of_mem hD fmt d hd) fmt
    exact ⟨Q', hQ', (hf' f).1.mp ((h5 hne d hd).trans h4.symm)⟩
  · intro fmt' hall
    have hr : ∀ d, DrawOk 10 d → runTrial f d fmt' = .min := by
      intro d hd
      obtain ⟨Q, hQ, hf⟩ := C81_trial 10 d hd fmt'
      exact (hf f).2.mpr (hall _ hd.1 Q hQ)
    have hmin : formatResult f 10 fmt' (D fmt') = .min := by
      apply formatResult_all f D hD fmt' .min rfl hr
      intro he b
      subst he
      obtain ⟨Q, hQ, hf⟩ := uniform_trial b 10
      exact (hf f).2.mpr (hall _ (by simp) Q hQ)
    have := h1 fmt' (by rw [hmin]; rfl)
    rw [hmin] at this
    cases this

/-! ## Monotone changes of the values -/

/-- A change of the values. -/
def mapPerf (h : Rat → Rat) (f : Perf) : Perf := fun K P => (f K P).map (Option.map h)

theorem scoreLoop_map (h : Rat → Rat) (f : Perf) (K : List Rat) (fmt : Format) : ∀ (is : List Nat) (P : List (List Rat)),
    scoreLoop (mapPerf h f) K fmt is P = (scoreLoop f K fmt is P).map (List.map (Option.map h))
  | [], P => rfl
  | i :: is, P => by
    unfold scoreLoop
    dsimp only
    rw [scoreLoop_map h f K fmt is]
    simp only [mapPerf, bind, Except.bind, pure, Except.pure]
    cases f K (makeIncorrect fmt P i) with
    | error e => rfl
    | ok s =>
      dsimp only [Except.map]
      cases scoreLoop f K fmt is (makeIncorrect fmt P i) <;> rfl

theorem trialScores_map (h : Rat → Rat) (f : Perf) (K : List Rat) (P : List (List Rat)) (fmt : Format) :
    trialScores (mapPerf h f) K P fmt = (trialScores f K P fmt).map (List.map (Option.map h)) := by
  unfold trialScores
  rw [scoreLoop_map]
  simp only [mapPerf, bind, Except.bind, pure, Except.pure]
  cases f K P with
  | error e => rfl
  | ok s =>
    dsimp only [Except.map]
    cases scoreLoop f K fmt (List.range P.length) P <;> rfl

theorem trialScores_ne_nil {f : Perf} {K : List Rat} {P : List (List Rat)} {fmt : Format} {l : List (Option Rat)}
    (h : trialScores f K P fmt = .ok l) : l ≠ [] := by
  have := ((trialScores_ok f K P fmt l).mp h).1
  intro h0
  simp [h0] at this

/-- The judgement without the numbers added in the code. -/
theorem judge_cons (a : Rat) (t : List Rat) : judge ((a :: t).map some) =
    (if (a :: t).getLastD 0 < a then
      (if List.IsChain (fun a b => b ≤ a) (a :: t) then .max else .exc "non monotonic")
    else if a < (a :: t).getLastD 0 then
      (if List.IsChain (fun a b => a ≤ b) (a :: t) then .min else .exc "non monotonic")
    else .exc "no difference") := by
  rw [judge_some]
  show (if (a :: t).getLastD 0 < a then _ else _) = _
  split
  · congr 1
    simp only [List.headD_cons, scanMax_iff, eq_iff_iff]
    constructor
    · rintro ⟨_, h⟩; exact (List.isChain_cons_cons.mp h).2
    · intro h
      exact ⟨falling_bounds t a h, List.isChain_cons_cons.mpr ⟨by simp, h⟩⟩
  · show (if a < (a :: t).getLastD 0 then _ else _) = _
    split
    · congr 1
      simp only [List.headD_cons, scanMin_iff, eq_iff_iff]
      constructor
      · rintro ⟨_, h⟩; exact (List.isChain_cons_cons.mp h).2
      · intro h
        exact ⟨rising_bounds t a h, List.isChain_cons_cons.mpr ⟨by simp, h⟩⟩
    · rfl

/-- 'max' for 'min' and the other way round. -/
def opposite : Outcome → Outcome
  | .max => .min
  | .min => .max
  | o => o

theorem getLastD_map (h : Rat → Rat) (a : Rat) (t : List Rat) :
    (h a :: t.map h).getLastD 0 = h ((a :: t).getLastD 0) := by
  have := List.getLast?_map (f := h) (l := a :: t)
  simp only [List.map_cons] at this
  rw [List.getLastD_eq_getLast?, this, List.getLastD_eq_getLast?]
  cases hl : (a :: t).getLast? with
  | none => simp at hl
  | some x => rfl

theorem chain_map (R : Rat → Rat → Prop) (h : Rat → Rat) : ∀ ss : List Rat,
    List.IsChain R (ss.map h) ↔ List.IsChain (fun a b => R (h a) (h b)) ss
  | [] => by simp
  | [a] => by simp
  | a :: b :: ss => by
    have := chain_map R h (b :: ss)
    simp only [List.map_cons, List.isChain_cons_cons] at this ⊢
    rw [this]

theorem map_some_map (h : Rat → Rat) (ss : List Rat) :
    (ss.map some).map (Option.map h) = (ss.map h).map some := by
  simp [Function.comp_def]

theorem any_none_map (h : Rat → Rat) (l : List (Option Rat)) :
    (l.map (Option.map h)).any Option.isNone = l.any Option.isNone := by
  induction l with
  | nil => rfl
  | cons a l ih => simp only [List.map_cons, List.any_cons, Option.isNone_map]; rw [ih]

theorem judge_nan {l : List (Option Rat)} (h : l.any Option.isNone = true) : judge l = .nan := by
  unfold judge
  rw [if_pos h]

theorem judge_mono (h : Rat → Rat) (hm : StrictMono h) (l : List (Option Rat)) (hne : l ≠ []) :
    judge (l.map (Option.map h)) = judge l := by
  by_cases hn : l.any Option.isNone = true
  · rw [judge_nan hn, judge_nan (by rw [any_none_map]; exact hn)]
  · rw [all_some hn] at hne ⊢
    generalize l.filterMap id = ss at hne
    cases ss with
    | nil => simp at hne
    | cons a t =>
      rw [map_some_map, List.map_cons, judge_cons, judge_cons, getLastD_map]
      simp only [hm.lt_iff_lt]
      have h1 : List.IsChain (fun a b => b ≤ a) (h a :: t.map h) ↔ List.IsChain (fun a b => b ≤ a) (a :: t) := by
        rw [← List.map_cons, chain_map]
        simp only [hm.le_iff_le]
      have h2 : List.IsChain (fun a b => a ≤ b) (h a :: t.map h) ↔ List.IsChain (fun a b => a ≤ b) (a :: t) := by
        rw [← List.map_cons, chain_map]
        simp only [hm.le_iff_le]
      simp only [h1, h2]

theorem judge_anti (h : Rat → Rat) (hm : StrictAnti h) (l : List (Option Rat)) (hne : l ≠ []) :
    judge (l.map (Option.map h)) = opposite (judge l) := by
  by_cases hn : l.any Option.isNone = true
  · rw [judge_nan hn, judge_nan (by rw [any_none_map]; exact hn)]
    rfl
  · rw [all_some hn] at hne ⊢
    generalize l.filterMap id = ss at hne
    cases ss with
    | nil => simp at hne
    | cons a t =>
      rw [map_some_map, List.map_cons, judge_cons, judge_cons, getLastD_map]
      simp only [hm.lt_iff_gt]
      have h1 : List.IsChain (fun a b => b ≤ a) (h a :: t.map h) ↔ List.IsChain (fun a b => a ≤ b) (a :: t) := by
        rw [← List.map_cons, chain_map]
        simp only [hm.le_iff_ge]
      have h2 : List.IsChain (fun a b => a ≤ b) (h a :: t.map h) ↔ List.IsChain (fun a b => b ≤ a) (a :: t) := by
        rw [← List.map_cons, chain_map]
        simp only [hm.le_iff_ge]
      simp only [h1, h2]
      generalize (a :: t).getLastD 0 = w
      rcases lt_trichotomy a w with hlt | heq | hgt
      · rw [if_pos hlt, if_neg (not_lt.mpr (le_of_lt hlt)), if_pos hlt]
        split <;> rfl
      · subst heq
        simp [opposite]
      · rw [if_neg (not_lt.mpr (le_of_lt hgt)), if_pos hgt, if_pos hgt]
        split <;> rfl

theorem runTrial_mono (h : Rat → Rat) (hm : StrictMono h) (f : Perf) (d : Draw) (fmt : Format) :
    runTrial (mapPerf h f) d fmt = runTrial f d fmt := by
  unfold runTrial
  rw [trialScores_map]
  cases ht : trialScores f (d.knowns.map num) (generatePredicted d fmt) fmt with
  | error e => rfl
  | ok l => exact judge_mono h hm l (trialScores_ne_nil ht)

theorem runTrial_anti (h : Rat → Rat) (hm : StrictAnti h) (f : Perf) (d : Draw) (fmt : Format) :
    runTrial (mapPerf h f) d fmt = opposite (runTrial f d fmt) := by
  unfold runTrial
  rw [trialScores_map]
  cases ht : trialScores f (d.knowns.map num) (generatePredicted d fmt) fmt with
  | error e => rfl
  | ok l => exact judge_anti h hm l (trialScores_ne_nil ht)

/-- What a renaming of outcomes has to respect. -/
structure Renaming (φ : Outcome → Outcome) : Prop where
  valid : ∀ o, (φ o).valid = o.valid
  differs : ∀ a b, differs (φ a) (φ b) = differs a b
  exc : ∀ m, φ (.exc m) = .exc m

theorem renaming_id : Renaming id := ⟨fun _ => rfl, fun _ _ => rfl, fun _ => rfl⟩

theorem renaming_opposite : Renaming opposite :=
  ⟨by intro o; cases o <;> rfl, by intro a b; cases a <;> cases b <;> rfl, fun _ => rfl⟩

theorem confidence_ren {φ : Outcome → Outcome} (hφ : Renaming φ) (f g : Perf) (fmt : Format)
    (hr : ∀ d, runTrial g d fmt = φ (runTrial f d fmt)) : ∀ (ds : List Draw) (b : Bool) (r : Outcome),
    confidence g fmt b (φ r) ds = φ (confidence f fmt b r ds)
  | [], b, r => by unfold confidence; rfl
  | d :: ds, b, r => by
    unfold confidence
    dsimp only
    rw [hr, hφ.differs, hφ.valid]
    split
    · split
      · exact confidence_ren hφ f g fmt hr ds _ _
      · split
        · have := confidence_ren hφ f g fmt hr ds b (.exc "inconsistent")
          rw [hφ.exc] at this
          exact this
        · rfl
    · exact confidence_ren hφ f g fmt hr ds _ _

theorem formatResult_ren {φ : Outcome → Outcome} (hφ : Renaming φ) (f g : Perf)
    (hr : ∀ d fmt, runTrial g d fmt = φ (runTrial f d fmt)) (n : Nat) (fmt : Format) (D : FormatDraws) :
    formatResult g n fmt D = φ (formatResult f n fmt D) := by
  unfold formatResult
  dsimp only
  rw [hr, hφ.valid]
  split
  · rw [confidence_ren hφ f g fmt (fun d => hr d fmt)]
    split
    · unfold simpler
      dsimp only
      rw [hr, hr, hφ.valid, hφ.valid, hφ.differs]
      split
      · rw [hφ.exc]
      · rfl
    · rfl
  · rfl

theorem pickBest_ren {φ : Outcome → Outcome} (hφ : Renaming φ) : ∀ (rs : List Outcome) (o : Option Outcome),
    pickBest (o.map φ) (rs.map φ) = (pickBest o rs).map φ
  | [], none => rfl
  | [], some a => rfl
  | r :: rs, o => by
    rw [List.map_cons, pickBest_cons, pickBest_cons, hφ.valid]
    have hd : differs (φ r) ((o.map φ).getD (φ r)) = differs r (o.getD r) := by
      cases o with
      | none => exact hφ.differs r r
      | some a => exact hφ.differs r a
    rw [hd, Option.isSome_map]
    split
    · split
      · rfl
      · exact pickBest_ren hφ rs (some r)
    · exact pickBest_ren hφ rs o

theorem detect_ren {φ : Outcome → Outcome} (hφ : Renaming φ) (f g : Perf)
    (hr : ∀ d fmt, runTrial g d fmt = φ (runTrial f d fmt)) (D : Format → FormatDraws) :
    detectBestResult none g D = (detectBestResult none f D).map φ := by
  unfold detectBestResult
  rw [if_neg (by simp), if_neg (by simp), if_neg (by simp), if_neg (by simp), ← pickBest_ren hφ]
  simp only [List.map_cons, List.map_nil, Option.map_none, formatResult_ren hφ f g hr]

/-- Only the order of the values matters: a strictly increasing change of them changes no answer, for any function
and any random numbers. -/
theorem C81_increasing_change (h : Rat → Rat) (hm : ∀ a b, a < b → h a < h b) (f : Perf) (D : Format → FormatDraws) :
    detectBestResult none (fun K P => (f K P).map (Option.map h)) D = detectBestResult none f D := by
  have := detect_ren renaming_id f (mapPerf h f) (fun d fmt => runTrial_mono h (fun a b => hm a b) f d fmt) D
  refine Eq.trans this ?_
  cases detectBestResult none f D <;> rfl

/-- A strictly decreasing change (e.g. the negative of the values) turns 'max' into 'min' and 'min' into 'max', and
refusals stay refusals. -/
theorem C81_decreasing_change (h : Rat → Rat) (hm : ∀ a b, a < b → h b < h a) (f : Perf) (D : Format → FormatDraws) :
    (detectBestResult none f D = .ok .max → detectBestResult none (fun K P => (f K P).map (Option.map h)) D = .ok .min) ∧
    (detectBestResult none f D = .ok .min → detectBestResult none (fun K P => (f K P).map (Option.map h)) D = .ok .max) ∧
    ∀ e, detectBestResult none f D = .error e →
      detectBestResult none (fun K P => (f K P).map (Option.map h)) D = .error e := by
  have := detect_ren renaming_opposite f (mapPerf h f) (fun d fmt => runTrial_anti h (fun a b => hm a b) f d fmt) D
  have h' : detectBestResult none (fun K P => (f K P).map (Option.map h)) D = (detectBestResult none f D).map opposite :=
    this
  rw [h']
  refine ⟨?_, ?_, ?_⟩
  · intro h0; rw [h0]; rfl
  · intro h0; rw [h0]; rfl
  · intro e h0; rw [h0]; rfl

/-- If 'min' is returned, the values rise with the wrong predictions: the same as for 'max'. -/
theorem C81_returned_min (f : Perf) (D : Format → FormatDraws) (hD : DrawsOk D)
    (h : detectBestResult none f D = .ok .min) :
    (∃ fmt Q, FirstWrong fmt (D fmt).main.knowns Q ∧ Rises f (D fmt).main.knowns Q ∧
      (fmt ≠ .labels → ∀ d ∈ (D fmt).more.take 10, ∃ Q', FirstWrong fmt d.knowns Q' ∧ Rises f d.knowns Q')) ∧
    ∀ fmt, ¬ ∀ K : List Bool, K.length = 10 → ∀ Q, FirstWrong fmt K Q → Falls f K Q := by
  have hneg := (C81_decreasing_change (fun x => -x) (fun a b hab => by linarith) f D).2.1 h
  obtain ⟨⟨fmt, Q, h1, h2, h3⟩, h4⟩ := C81_returned_max _ D hD hneg
  have hback : ∀ K Q, Falls (fun K P => (f K P).map (Option.map fun x => -x)) K Q → Rises f K Q := by
    rintro K Q ⟨s, hs, hm, hl⟩
    refine ⟨fun i => - s i, ?_, ?_, ?_⟩
    · intro i hi
      have := hs i hi
      dsimp only at this
      cases hf : f (K.map fun b => if b then 1 else 0) (Q i) with
      | error e => rw [hf] at this; cases this
      | ok v =>
        rw [hf] at this
        cases v with
        | none => cases this
        | some x =>
          have hx : -x = s i := by simpa [Except.map] using this
          dsimp only
          rw [← hx]; simp
    · intro i hi
      have := hm i hi
      dsimp only
      linarith
    · dsimp only
      linarith
  have hforth : ∀ K Q, Falls f K Q → Rises (fun K P => (f K P).map (Option.map fun x => -x)) K Q := by
    rintro K Q ⟨s, hs, hm, hl⟩
    refine ⟨fun i => - s i, ?_, ?_, ?_⟩
    · intro i hi
      dsimp only
      rw [hs i hi]; rfl
    · intro i hi
      have := hm i hi
      dsimp only
      linarith
    · dsimp only
      linarith
  refine ⟨⟨fmt, Q, h1, hback _ _ h2, ?_⟩, ?_⟩
  · intro hne d hd
    obtain ⟨Q', h5, h6⟩ := h3 hne d hd
    exact ⟨Q', h5, hback _ _ h6⟩
  · intro fmt' hall
    exact h4 fmt' (fun K hK Q hQ => hforth K Q (hall K hK Q hQ))

/-! ## Functions with a direction are found, whatever the random numbers -/

/-- A function that does not accept the format: it raises or returns nan for right predictions. -/
def Refuses (f : Perf) (fmt : Format) : Prop :=
  ∀ (K : List Bool) (Q : Nat → List (List Rat)), K.length = 10 → FirstWrong fmt K Q →
    ∀ s, f (K.map fun b => if b then 1 else 0) (Q 0) ≠ .ok (some s)

theorem refuses_result (f : Perf) (D : Format → FormatDraws) (hD : DrawsOk D) (fmt : Format) (h : Refuses f fmt) :
    (formatResult f 10 fmt (D fmt)).valid = false := by
  by_contra hc
  have hv : (formatResult f 10 fmt (D fmt)).valid = true := by simpa using hc
  have h1 := (formatResult_valid f 10 fmt (D fmt) hv).1
  rw [h1] at hv
  obtain ⟨Q, hQ, hf⟩ := C81_trial 10 (D fmt).main (hD fmt).1 fmt
  have hno := h _ Q (hD fmt).1.1 hQ
  rcases (valid_iff _).mp hv with h2 | h2
  · obtain ⟨s, hs, _⟩ := (hf f).1.mp h2
    exact hno (s 0) (hs 0 (by omega))
  · obtain ⟨s, hs, _⟩ := (hf f).2.mp h2
    exact hno (s 0) (hs 0 (by omega))

/-- A function whose values fall with wrong predictions, in every format it accepts and for all known values and
predictions, is found to be 'max' for all random numbers, if it accepts some format. -/
theorem C81_finds_max (f : Perf) (D : Format → FormatDraws) (hD : DrawsOk D)
    (hall : ∀ fmt, Refuses f fmt ∨ ∀ K : List Bool, K.length = 10 → ∀ Q, FirstWrong fmt K Q → Falls f K Q)
    (hsome : ∃ fmt, ¬ Refuses f fmt) :
    detectBestResult none f D = .ok .max := by
  have key : ∀ fmt, (∀ K : List Bool, K.length = 10 → ∀ Q, FirstWrong fmt K Q → Falls f K Q) →
      formatResult f 10 fmt (D fmt) = .max := by
    intro fmt h
    apply formatResult_all f D hD fmt .max rfl
    · intro d hd
      obtain ⟨Q, hQ, hf⟩ := C81_trial 10 d hd fmt
      exact (hf f).1.mpr (h _ hd.1 Q hQ)
    · intro he b
      subst he
      obtain ⟨Q, hQ, hf⟩ := uniform_trial b 10
      exact (hf f).1.mpr (h _ (by simp) Q hQ)
  rw [detect_ok]
  constructor
  · intro fmt hv
    rcases hall fmt with h | h
    · rw [refuses_result f D hD fmt h] at hv; cases hv
    · exact key fmt h
  · obtain ⟨fmt, h⟩ := hsome
    rcases hall fmt with h' | h'
    · exact absurd h' h
    · exact ⟨fmt, by rw [key fmt h']; rfl⟩

/-- The same for values that rise with wrong predictions and 'min'. -/
theorem C81_finds_min (f : Perf) (D : Format → FormatDraws) (hD : DrawsOk D)
    (hall : ∀ fmt, Refuses f fmt ∨ ∀ K : List Bool, K.length = 10 → ∀ Q, FirstWrong fmt K Q → Rises f K Q)
    (hsome : ∃ fmt, ¬ Refuses f fmt) :
    detectBestResult none f D = .ok .min := by
  have key : ∀ fmt, (∀ K : List Bool, K.length = 10 → ∀ Q, FirstWrong fmt K Q → Rises f K Q) →
      formatResult f 10 fmt (D fmt) = .min := by
    intro fmt h
    apply formatResult_all f D hD fmt .min rfl
    · intro d hd
      obtain ⟨Q, hQ, hf⟩ := C81_trial 10 d hd fmt
      exact (hf f).2.mpr (h _ hd.1 Q hQ)
    · intro he b
      subst he
      obtain ⟨Q, hQ, hf⟩ := uniform_trial b 10
      exact (hf f).2.mpr (h _ (by simp) Q hQ)
  rw [detect_ok]
  constructor
  · intro fmt hv
    rcases hall fmt with h | h
    · rw [refuses_result f D hD fmt h] at hv; cases hv
    · exact key fmt h
  · obtain ⟨fmt, h⟩ := hsome
    rcases hall fmt with h' | h'
    · exact absurd h' h
    · exact ⟨fmt, by rw [key fmt h']; rfl⟩

/-! ## Functions of labels -/

/-- The number of wrong labels. -/
def wrongs : List Rat → List (List Rat) → Nat
  | k :: K, r :: P => (if r = [k] then 0 else 1) + wrongs K P
  | _, _ => 0

/-- A performance function for labels, with values from the number of wrong labels (and the known values). -/
def labelPerf (value : List Rat → Nat → Rat) : Perf := fun K P =>
  if P.all (fun r => r.length == 1) then .ok (some (value K (wrongs K P))) else .error "one feature expected"

theorem wrongs_count : ∀ (K : List Bool) (P : List (List Rat)) (i : Nat), P.length = K.length →
    (∀ (j : Nat) (b : Bool) (row : List Rat), K[j]? = some b → P[j]? = some row →
      row = [if (if j < i then !b else b) then 1 else 0]) →
    wrongs (K.map fun b => if b then 1 else 0) P = min i K.length
  | [], [], i, _, _ => by simp [wrongs]
  | [], _ :: _, i, h, _ => by simp at h
  | _ :: _, [], i, h, _ => by simp at h
  | b :: K, r :: P, i, h, hr => by
    have h0 := hr 0 b r rfl rfl
    have ih := wrongs_count K P (i - 1) (by simpa using h) (by
      intro j b' row hb hrow
      have := hr (j + 1) b' row (by simpa using hb) (by simpa using hrow)
      rw [this]
      by_cases hj : j < i - 1
      · simp [hj, show j + 1 < i by omega]
      · simp [hj, show ¬ j + 1 < i by omega])
    simp only [List.map_cons, wrongs, List.length_cons]
    rw [ih, h0]
    cases i with
    | zero => simp
    | succ i =>
      have : ¬ ([if (if 0 < i + 1 then !b else b) then (1 : Rat) else 0] = [if b then 1 else 0]) := by
        cases b <;> simp
      rw [if_neg this]
      omega

theorem labelPerf_values (value : List Rat → Nat → Rat) (K : List Bool) (Q : Nat → List (List Rat))
    (hQ : FirstWrong .labels K Q) (i : Nat) (hi : i ≤ K.length) :
    labelPerf value (K.map fun b => if b then 1 else 0) (Q i) =
      .ok (some (value (K.map fun b => if b then 1 else 0) i)) := by
  obtain ⟨hlen, hrow⟩ := hQ.1 i hi
  unfold labelPerf
  rw [if_pos, wrongs_count K (Q i) i hlen (fun j b row h1 h2 => hrow j b row h1 h2), Nat.min_eq_left hi]
  rw [List.all_eq_true]
  intro r hr
  obtain ⟨j, hj, rfl⟩ := List.mem_iff_getElem.mp hr
  have hj' : j < K.length := by omega
  have := hrow j _ _ (List.getElem?_eq_getElem hj') (List.getElem?_eq_getElem hj)
  rw [show (Q i)[j] = _ from this]
  rfl

theorem labelPerf_refuses (value : List Rat → Nat → Rat) (fmt : Format) (h : fmt ≠ .labels) :
    Refuses (labelPerf value) fmt := by
  intro K Q hK hQ s
  obtain ⟨hlen, hrow⟩ := hQ.1 0 (by omega)
  unfold labelPerf
  rw [if_neg]
  · intro hc; cases hc
  · rw [List.all_eq_true]
    intro hc
    have h0 : 0 < (Q 0).length := by omega
    have h1 := hrow 0 _ _ (List.getElem?_eq_getElem (by omega : 0 < K.length)) (List.getElem?_eq_getElem h0)
    have h2 := hc _ (List.getElem_mem h0)
    cases fmt with
    | labels => exact h rfl
    | bestScores =>
      obtain ⟨t, ht⟩ := h1
      rw [ht] at h2
      simp at h2
    | allScores =>
      obtain ⟨t, u, ht, _⟩ := h1
      rw [ht] at h2
      simp at h2

theorem labelPerf_accepts (value : List Rat → Nat → Rat) : ¬ Refuses (labelPerf value) .labels := by
  intro h
  obtain ⟨Q, hQ, _⟩ := uniform_trial true 10
  exact h _ Q (by simp) hQ _ (labelPerf_values value _ Q hQ 0 (by simp))

/-- Every function of the number of wrong labels that grows (at least from none to all) with that number is found to
be 'min', one that falls to be 'max', for all random numbers. -/
theorem C81_label_functions (g : Nat → Rat) (D : Format → FormatDraws) (hD : DrawsOk D) :
    ((∀ i, g i ≤ g (i + 1)) → g 0 < g 10 → detectBestResult none (labelPerf fun _ => g) D = .ok .min) ∧
    ((∀ i, g (i + 1) ≤ g i) → g 10 < g 0 → detectBestResult none (labelPerf fun _ => g) D = .ok .max) := by
  constructor
  · intro h1 h2
    refine C81_finds_min _ D hD ?_ ⟨.labels, labelPerf_accepts _⟩
    intro fmt
    by_cases hf : fmt = .labels
    · subst hf
      right
      intro K hK Q hQ
      exact ⟨g, fun i hi => labelPerf_values _ K Q hQ i hi, fun i _ => h1 i, by rw [hK]; exact h2⟩
    · exact Or.inl (labelPerf_refuses _ fmt hf)
  · intro h1 h2
    refine C81_finds_max _ D hD ?_ ⟨.labels, labelPerf_accepts _⟩
    intro fmt
    by_cases hf : fmt = .labels
    · subst hf
      right
      intro K hK Q hQ
      exact ⟨g, fun i hi => labelPerf_values _ K Q hQ i hi, fun i _ => h1 i, by rw [hK]; exact h2⟩
    · exact Or.inl (labelPerf_refuses _ fmt hf)

/-- Concrete random numbers. -/
def sampleDraw (first : Bool) : Draw :=
  ⟨[first, true, false, false, true, false, true, true, false, false], List.replicate 10 true,
    [(12, 2), (15, 3), (21, 20), (13, 12), (19, 7), (12, 11), (14, 2), (16, 5), (17, 9), (18, 4)]⟩

def sampleDraws (first : Bool) : Format → FormatDraws := fun _ => ⟨sampleDraw first, List.replicate 10 (sampleDraw first)⟩

theorem sampleDraw_ok (first : Bool) : DrawOk 10 (sampleDraw first) := by
  cases first <;> unfold DrawOk <;> decide +kernel

theorem sampleDraws_ok (first : Bool) : DrawsOk (sampleDraws first) := by
  intro fmt
  refine ⟨sampleDraw_ok first, ?_, by simp [sampleDraws]⟩
  intro d hd
  rw [show d = sampleDraw first from List.eq_of_mem_replicate hd]
  exact sampleDraw_ok first

/-- The fraction of wrong labels is found to be 'min'. -/
example : detectBestResult none (labelPerf fun _ i => (i : Rat) / 10) (sampleDraws true) = .ok .min :=
  (C81_label_functions _ _ (sampleDraws_ok true)).1
    (fun i => by
      apply div_le_div_of_nonneg_right
      · exact_mod_cast Nat.le_succ i
      · norm_num)
    (by norm_num)

/-- The sum of the scores of the right labels (a function of all scores) is found to be 'max' in these trials. -/
example : detectBestResult none (fun K P => if P.all (fun r => r.length == 2 && decide (2 ≤ r.getD 0 0)) then
      .ok (some ((List.zipWith (fun k r => if k = 1 then r.getD 1 0 else r.getD 0 0) K P).sum))
    else .error "scores expected") (sampleDraws true) = .ok .max := by decide +kernel

/-! ## Inconsistent functions that are not refused -/

/-- All known values are equal. -/
def uniform (K : List Rat) : Bool := K.all (fun k => k == 0) || K.all (fun k => k == 1)

/-- **Violated.** "A function that is inconsistent in attributing high or low values to right predictions is refused":
this function falls with wrong labels when all known labels are equal and rises otherwise. Both further trials say
'max' and the others 'min', for all random numbers, but the further trials are only compared with each other
(utility.py:155-161), and 'min' is returned. -/
theorem C81_inconsistent_refused_violated :
    ∃ f : Perf, (∀ b Q, FirstWrong .labels (List.replicate 10 b) Q → Falls f (List.replicate 10 b) Q) ∧
      ∀ D, DrawsOk D → detectBestResult none f D = .ok .min := by
  refine ⟨labelPerf fun K i => if uniform K then -(i : Rat) else (i : Rat), ?_, ?_⟩
  · intro b Q hQ
    have hu : uniform ((List.replicate 10 b).map fun b => if b then 1 else 0) = true := by
      cases b <;> decide +kernel
    refine ⟨fun i => -(i : Rat), ?_, ?_, ?_⟩
    · intro i hi
      rw [labelPerf_values _ _ Q hQ i hi, if_pos hu]
    · intro i _
      dsimp only
      push_cast
      linarith
    · simp
  · intro D hD
    have hmain : runTrial (labelPerf fun K i => if uniform K then -(i : Rat) else (i : Rat)) (D .labels).main .labels
        = .min := by
      have hok := (hD .labels).1
      obtain ⟨Q, hQ, hf⟩ := C81_trial 10 _ hok .labels
      refine (hf _).2.mpr ?_
      have hu : uniform ((D .labels).main.knowns.map fun b => if b then 1 else 0) = false := by
        obtain ⟨_, h1, h2, _⟩ := hok
        unfold uniform
        rw [Bool.or_eq_false_iff]
        constructor
        · rw [List.all_eq_false]
          exact ⟨1, List.mem_map.mpr ⟨true, h1, rfl⟩, by decide +kernel⟩
        · rw [List.all_eq_false]
          exact ⟨0, List.mem_map.mpr ⟨false, h2, rfl⟩, by decide +kernel⟩
      refine ⟨fun i => (i : Rat), ?_, ?_, ?_⟩
      · intro i hi
        rw [labelPerf_values _ _ Q hQ i hi, hu]
        simp
      · intro i _
        dsimp only
        push_cast
        linarith
      · rw [hok.1]
        norm_num
    have hsimple : ∀ b, runTrial (labelPerf fun K i => if uniform K then -(i : Rat) else (i : Rat))
        (uniformDraw b 10) .labels = .max := by
      intro b
      cases b <;> decide +kernel
    have hl : formatResult (labelPerf fun K i => if uniform K then -(i : Rat) else (i : Rat)) 10 .labels (D .labels)
        = .min := by
      rw [formatResult_labels, hmain, if_pos (by rfl)]
      simp [simpler, hsimple, differs]
    rw [detect_ok]
    refine ⟨?_, .labels, by rw [hl]; rfl⟩
    intro fmt hv
    by_cases hf : fmt = .labels
    · subst hf; exact hl
    · rw [refuses_result _ D hD fmt (labelPerf_refuses _ fmt hf)] at hv
      cases hv

/-- **Violated.** "The answer does not depend on the random numbers": with labels one deviating repeated trial is
always forgiven, and there is only one (utility.py:100, 106, 116-118), so for an inconsistent function the main trial
alone decides. -/
theorem C81_same_answer_violated :
    ∃ f D D', DrawsOk D ∧ DrawsOk D' ∧ detectBestResult none f D = .ok .max ∧
      detectBestResult none f D' = .ok .min := by
  refine ⟨labelPerf fun K i => if uniform K || K.headD 0 == 1 then -(i : Rat) else (i : Rat),
    sampleDraws true, sampleDraws false, sampleDraws_ok true, sampleDraws_ok false, ?_, ?_⟩ <;> decide +kernel

/-- A function of the labels and best scores: the sum of the scores of the rightly labelled points. -/
def scoredRight : Perf := fun K P =>
  if P.all (fun r => r.length == 2 && decide (r.getD 0 0 ≤ 1)) then
    .ok (some ((List.zipWith (fun k r => if r.getD 0 0 = k then r.getD 1 0 else 0) K P).sum))
  else .error "labels and scores expected"

/-- **Violated.** "A function of labels and best scores whose values fall with wrong labels is found to be 'max'": the
sum of the scores of the rightly labelled points is, unless all scores that are drawn (0 or 1) are 0 in one of the
eleven trials. -/
theorem C81_best_scores_violated :
    detectBestResult none scoredRight (sampleDraws true) = .ok .max ∧
    ∃ D, DrawsOk D ∧ detectBestResult none scoredRight D = .error .InvalidArgumentValue := by
  refine ⟨by decide +kernel, fun _ => ⟨{ sampleDraw true with best := List.replicate 10 false },
    List.replicate 10 (sampleDraw true)⟩, ?_, by decide +kernel⟩
  intro fmt
  refine ⟨by unfold DrawOk; dsimp only; decide +kernel, ?_, by simp⟩
  intro d hd
  rw [show d = sampleDraw true from List.eq_of_mem_replicate hd]
  exact sampleDraw_ok true

end Nimble.DetectBest
