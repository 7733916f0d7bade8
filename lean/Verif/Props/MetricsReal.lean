import Verif.Model.MetricsReal
import Mathlib.Tactic.Linarith
import Mathlib.Tactic.FieldSimp
import Mathlib.Tactic.Positivity
import Mathlib.Tactic.Ring

/-!
# C58: the declared best value of a performance function is its bound
-/

namespace Nimble

/-! ## Helpers -/

theorem foldl_add_sum {A : Type} (f : A → ℝ) (l : List A) (z : ℝ) :
    l.foldl (fun z a => z + f a) z = z + (l.map f).sum := by
  induction l generalizing z with
  | nil => simp
  | cons a l ih => simp [ih]; ring

theorem sum_nonneg' {A : Type} (f : A → ℝ) (hf : ∀ a, 0 ≤ f a) (l : List A) : 0 ≤ (l.map f).sum := by
  induction l with
  | nil => simp
  | cons a l ih => simpa using add_nonneg (hf a) ih

/-- A sum of non-negative distances is 0 exactly when all pairs are equal. -/
theorem sum_zip_zero (f : ℝ → ℝ → ℝ) (hf : ∀ a b, 0 ≤ f a b) (h0 : ∀ a b, f a b = 0 ↔ a = b) :
    ∀ (k p : List ℝ), k.length = p.length →
      (((k.zip p).map (fun ap => f ap.1 ap.2)).sum = 0 ↔ k = p)
  | [], [], _ => by simp
  | a :: k, b :: p, h => by
    have ih := sum_zip_zero f hf h0 k p (by simpa using h)
    have hn := sum_nonneg' (fun ap : ℝ × ℝ => f ap.1 ap.2) (fun ap => hf _ _) (k.zip p)
    simp only [List.zip_cons_cons, List.map_cons, List.sum_cons, List.cons.injEq]
    rw [← h0 a b, ← ih]
    constructor
    · intro h
      have := hf a b
      constructor <;> linarith
    · rintro ⟨h1, h2⟩; rw [h1, h2, add_zero]

theorem loop_fracIncorrect (l : List (ℝ × ℝ)) (z : ℝ) :
    l.foldl (fun z ap => if ap.1 = ap.2 then z else z + 1) z
      = z + (l.map (fun ap => if ap.1 = ap.2 then (0 : ℝ) else 1)).sum := by
  rw [← foldl_add_sum]
  congr 1
  funext z ap
  split <;> simp

theorem zipWith_sub_sq (k p : List ℝ) :
    dotList (List.zipWith (fun p k => p - k) p k) (List.zipWith (fun p k => p - k) p k)
      = ((k.zip p).map (fun ap => (ap.2 - ap.1) ^ 2)).sum := by
  unfold dotList
  induction k generalizing p with
  | nil => cases p <;> simp
  | cons a k ih =>
    cases p with
    | nil => simp
    | cons b p => simp only [List.zipWith_cons_cons, List.sum_cons, List.zip_cons_cons, List.map_cons, ih]; ring

theorem populationVariance_nonneg (a : List ℝ) : 0 ≤ populationVariance a := by
  unfold populationVariance
  exact div_nonneg (sum_nonneg' _ (fun x => sq_nonneg _) a) (by positivity)

theorem dot_self (a : List ℝ) : dotList a a = (a.map (· ^ 2)).sum := by
  unfold dotList
  induction a with
  | nil => rfl
  | cons x a ih => simp only [List.zipWith_cons_cons, List.sum_cons, List.map_cons, ih]; ring

/-- Σ (a - t b)² -/
theorem sum_sq_expand (t : ℝ) : ∀ (a b : List ℝ), a.length = b.length →
    ((a.zip b).map (fun p => (p.1 - t * p.2) ^ 2)).sum
      = (a.map (· ^ 2)).sum - 2 * t * dotList a b + t ^ 2 * (b.map (· ^ 2)).sum
  | [], [], _ => by simp [dotList]
  | x :: a, y :: b, h => by
    have ih := sum_sq_expand t a b (by simpa using h)
    unfold dotList at ih ⊢
    simp only [List.zip_cons_cons, List.map_cons, List.sum_cons, List.zipWith_cons_cons, ih]
    ring

theorem cauchy_schwarz (a b : List ℝ) (h : a.length = b.length) :
    dotList a b ^ 2 ≤ (a.map (· ^ 2)).sum * (b.map (· ^ 2)).sum := by
  have hA : 0 ≤ (a.map (· ^ 2)).sum := sum_nonneg' (· ^ 2) (fun x => sq_nonneg x) a
  have hB : 0 ≤ (b.map (· ^ 2)).sum := sum_nonneg' (· ^ 2) (fun x => sq_nonneg x) b
  have key : ∀ t : ℝ, 0 ≤ (a.map (· ^ 2)).sum - 2 * t * dotList a b + t ^ 2 * (b.map (· ^ 2)).sum := by
    intro t
    rw [← sum_sq_expand t a b h]
    exact sum_nonneg' (fun p : ℝ × ℝ => (p.1 - t * p.2) ^ 2) (fun p => sq_nonneg _) _
  by_cases hz : (b.map (· ^ 2)).sum = 0
  · rw [hz, mul_zero]
    have h1 : dotList a b = 0 := by
      by_contra hne
      have := key (((a.map (· ^ 2)).sum + 1) / (2 * dotList a b))
      rw [hz, mul_zero, add_zero] at this
      have e : 2 * (((a.map (· ^ 2)).sum + 1) / (2 * dotList a b)) * dotList a b
          = (a.map (· ^ 2)).sum + 1 := by field_simp
      rw [e] at this
      linarith
    rw [h1]; simp
  · have hB' : 0 < (b.map (· ^ 2)).sum := lt_of_le_of_ne hB (Ne.symm hz)
    have := key (dotList a b / (b.map (· ^ 2)).sum)
    have e : (a.map (· ^ 2)).sum - 2 * (dotList a b / (b.map (· ^ 2)).sum) * dotList a b
        + (dotList a b / (b.map (· ^ 2)).sum) ^ 2 * (b.map (· ^ 2)).sum
        = ((a.map (· ^ 2)).sum * (b.map (· ^ 2)).sum - dotList a b ^ 2) / (b.map (· ^ 2)).sum := by
      field_simp; ring
    rw [e] at this
    have := (div_nonneg_iff.1 this).resolve_right (by intro h; linarith [h.2])
    linarith [this.1]

/-! ## The values in closed form -/

theorem rmse_eq (k p : List ℝ) :
    rmse k p = Real.sqrt (((k.zip p).map (fun ap => (ap.2 - ap.1) ^ 2)).sum / p.length) := by
  unfold rmse computeError
  rw [foldl_add_sum (fun ap : ℝ × ℝ => (ap.2 - ap.1) ^ 2), zero_add]

theorem mae_eq (k p : List ℝ) :
    mae k p = ((k.zip p).map (fun ap => |ap.2 - ap.1|)).sum / p.length := by
  unfold mae computeError
  rw [foldl_add_sum (fun ap : ℝ × ℝ => |ap.2 - ap.1|), zero_add]

theorem fracIncorrect_eq (k p : List ℝ) :
    fracIncorrect k p = ((k.zip p).map (fun ap => if ap.1 = ap.2 then (0 : ℝ) else 1)).sum / p.length := by
  unfold fracIncorrect computeError
  rw [loop_fracIncorrect, zero_add]

theorem frac_nonneg (k p : List ℝ) : 0 ≤ fracIncorrect k p := by
  rw [fracIncorrect_eq]
  exact div_nonneg (sum_nonneg' (fun ap : ℝ × ℝ => if ap.1 = ap.2 then (0 : ℝ) else 1)
    (fun ap => by split <;> norm_num) _) (by positivity)

theorem varianceFraction_some {k p : List ℝ} {v : ℝ} (h : varianceFraction k p = some v) :
    populationVariance k ≠ 0 ∧
    v = ((k.zip p).map (fun ap => (ap.2 - ap.1) ^ 2)).sum
      / (List.zipWith (fun p k => p - k) p k).length / populationVariance k := by
  unfold varianceFraction at h
  dsimp only at h
  split at h
  · cases h
  · rename_i hne
    refine ⟨hne, ?_⟩
    rw [← zipWith_sub_sq]
    exact (Option.some.inj h).symm

theorem varianceFraction_nonneg {k p : List ℝ} {v : ℝ} (h : varianceFraction k p = some v) : 0 ≤ v := by
  obtain ⟨_, rfl⟩ := varianceFraction_some h
  exact div_nonneg (div_nonneg (sum_nonneg' (fun ap : ℝ × ℝ => (ap.2 - ap.1) ^ 2)
    (fun ap => sq_nonneg _) _) (by positivity)) (populationVariance_nonneg k)

/-! ## C58 -/

/-- C58. No prediction is scored better than the declared best value: for a function to be minimised
the value is at least `best`, for one to be maximised at most. -/
theorem C58_best_is_bound (m : RealMetric) {known pred : List ℝ} (hl : known.length = pred.length)
    {v : ℝ} (h : m.eval known pred = some v) :
    (m.optimal = .min → m.best ≤ v) ∧ (m.optimal = .max → v ≤ m.best) := by
  cases m <;> simp only [RealMetric.optimal, RealMetric.best, reduceCtorEq, false_implies, true_and,
    and_true, forall_true_left] <;> simp only [RealMetric.eval] at h
  · obtain rfl := Option.some.inj h
    rw [rmse_eq]; exact Real.sqrt_nonneg _
  · obtain rfl := Option.some.inj h
    rw [mae_eq]
    exact div_nonneg (sum_nonneg' (fun ap : ℝ × ℝ => |ap.2 - ap.1|) (fun ap => abs_nonneg _) _)
      (by positivity)
  · obtain rfl := Option.some.inj h
    exact frac_nonneg _ _
  · exact varianceFraction_nonneg h
  · obtain rfl := Option.some.inj h
    linarith [frac_nonneg known pred]
  · unfold Nimble.rSquared at h
    obtain ⟨w, hw, rfl⟩ := Option.map_eq_some_iff.1 h
    linarith [varianceFraction_nonneg hw]
  · unfold cosineSim at h
    dsimp only at h
    split at h
    · cases h
    · rename_i hne
      obtain rfl := Option.some.inj h
      have hA : 0 ≤ (known.map (· ^ 2)).sum := sum_nonneg' (· ^ 2) (fun x => sq_nonneg x) known
      have hpos : 0 < Real.sqrt ((known.map (· ^ 2)).sum) * Real.sqrt ((pred.map (· ^ 2)).sum) :=
        lt_of_le_of_ne (by positivity) (Ne.symm hne)
      rw [div_le_one hpos, ← Real.sqrt_mul hA]
      apply Real.le_sqrt_of_sq_le
      exact cauchy_schwarz known pred hl

theorem zip_self_map {B : Type} (f : ℝ → ℝ → B) (k : List ℝ) :
    (k.zip k).map (fun ap => f ap.1 ap.2) = k.map (fun a => f a a) := by
  induction k with
  | nil => rfl
  | cons a k ih => simp [ih]

/-- C58. A perfect prediction is scored exactly the declared best value, whenever the function is
defined there. -/
theorem C58_perfect_is_best (m : RealMetric) {known : List ℝ} {v : ℝ}
    (h : m.eval known known = some v) : v = m.best := by
  have z0 : ∀ l : List ℝ, (l.map (fun _ => (0 : ℝ))).sum = 0 := by
    intro l; induction l with
    | nil => rfl
    | cons a l ih => simp
  have hsq : ((known.zip known).map (fun ap => (ap.2 - ap.1) ^ 2)).sum = 0 := by
    rw [zip_self_map (fun a b => (b - a) ^ 2)]; simpa using z0 known
  have hfr : fracIncorrect known known = 0 := by
    rw [fracIncorrect_eq, zip_self_map (fun a b => if a = b then (0 : ℝ) else 1)]
    simp only [if_true]
    rw [z0, zero_div]
  have hvf : ∀ w, varianceFraction known known = some w → w = 0 := by
    intro w hw
    obtain ⟨_, rfl⟩ := varianceFraction_some hw
    rw [hsq]; simp
  cases m <;> simp only [RealMetric.best] <;> simp only [RealMetric.eval] at h
  · obtain rfl := Option.some.inj h
    rw [rmse_eq, hsq]; simp
  · obtain rfl := Option.some.inj h
    rw [mae_eq, zip_self_map (fun a b => |b - a|)]
    simp only [sub_self, abs_zero]
    rw [z0, zero_div]
  · obtain rfl := Option.some.inj h
    exact hfr
  · exact hvf v h
  · obtain rfl := Option.some.inj h
    rw [hfr, sub_zero]
  · unfold Nimble.rSquared at h
    obtain ⟨w, hw, rfl⟩ := Option.map_eq_some_iff.1 h
    rw [hvf w hw, sub_zero]
  · unfold cosineSim at h
    dsimp only at h
    split at h
    · cases h
    · rename_i hne
      obtain rfl := Option.some.inj h
      have hA : 0 ≤ (known.map (· ^ 2)).sum := sum_nonneg' (· ^ 2) (fun x => sq_nonneg x) known
      rw [Real.mul_self_sqrt hA] at hne ⊢
      rw [dot_self, div_self hne]

/-- C58. For every function but the cosine similarity, only the perfect prediction is scored the
best value. -/
theorem C58_best_only_perfect (m : RealMetric) (hm : m ≠ .cosineSimilarity) {known pred : List ℝ}
    (hl : known.length = pred.length) (hn : 0 < known.length)
    (h : m.eval known pred = some m.best) : known = pred := by
  have hp : (0 : ℝ) < pred.length := by rw [← hl]; exact_mod_cast hn
  have hsq := sum_zip_zero (fun a b => (b - a) ^ 2) (fun a b => sq_nonneg _)
    (fun a b => by rw [sq_eq_zero_iff, sub_eq_zero, eq_comm]) known pred hl
  have hfr := sum_zip_zero (fun a b => if a = b then (0 : ℝ) else 1)
    (fun a b => by split <;> norm_num)
    (fun a b => by by_cases e : a = b <;> simp [e]) known pred hl
  have hfz : fracIncorrect known pred = 0 → known = pred := by
    intro h0
    rw [fracIncorrect_eq, div_eq_zero_iff] at h0
    exact hfr.1 (h0.resolve_right hp.ne')
  have hvf : varianceFraction known pred = some 0 → known = pred := by
    intro h0
    obtain ⟨h1, h2⟩ := varianceFraction_some h0
    have h3 := (div_eq_zero_iff.1 h2.symm).resolve_right h1
    have h4 : ((List.zipWith (fun p k => p - k) pred known).length : ℝ) ≠ 0 := by
      simp only [List.length_zipWith]
      rw [← hl, Nat.min_self]
      exact_mod_cast hn.ne'
    exact hsq.1 ((div_eq_zero_iff.1 h3).resolve_right h4)
  cases m <;> simp only [RealMetric.best] at h <;> simp only [RealMetric.eval] at h
  · have h1 := Option.some.inj h
    rw [rmse_eq, Real.sqrt_eq_zero (div_nonneg (sum_nonneg' (fun ap : ℝ × ℝ => (ap.2 - ap.1) ^ 2)
      (fun ap => sq_nonneg _) _) hp.le), div_eq_zero_iff] at h1
    exact hsq.1 (h1.resolve_right hp.ne')
  · have h1 := Option.some.inj h
    rw [mae_eq, div_eq_zero_iff] at h1
    exact (sum_zip_zero (fun a b => |b - a|) (fun a b => abs_nonneg _)
      (fun a b => by rw [abs_eq_zero, sub_eq_zero, eq_comm]) known pred hl).1 (h1.resolve_right hp.ne')
  · exact hfz (Option.some.inj h)
  · exact hvf h
  · apply hfz
    have := Option.some.inj h
    linarith
  · unfold Nimble.rSquared at h
    obtain ⟨w, hw, hw2⟩ := Option.map_eq_some_iff.1 h
    have : w = 0 := by linarith
    exact hvf (this ▸ hw)
  · exact absurd rfl hm

/-- C58. Predicting the mean of the known values for every point gives `rSquared` 0. -/
theorem C58_mean_prediction {known : List ℝ} {v : ℝ}
    (h : rSquared known (known.map (fun _ => known.sum / known.length)) = some v) : v = 0 := by
  unfold Nimble.rSquared at h
  obtain ⟨w, hw, rfl⟩ := Option.map_eq_some_iff.1 h
  obtain ⟨h1, rfl⟩ := varianceFraction_some hw
  have e : ((known.zip (known.map (fun _ => known.sum / known.length))).map
      (fun ap => (ap.2 - ap.1) ^ 2)).sum
      = (known.map (fun x => (x - known.sum / known.length) ^ 2)).sum := by
    generalize known.sum / (known.length : ℝ) = c
    clear h1 hw h
    induction known with
    | nil => rfl
    | cons a k ih => simp only [List.map_cons, List.zip_cons_cons, List.sum_cons, ih]; ring
  rw [e]
  have e2 : ((List.zipWith (fun p k => p - k) (known.map (fun _ => known.sum / known.length))
      known).length : ℝ) = known.length := by simp
  rw [e2]
  have : (known.map (fun x => (x - known.sum / known.length) ^ 2)).sum / known.length
      = populationVariance known := rfl
  rw [this, div_self h1, sub_self]

/-! ## Concrete cases -/

example : (RealMetric.meanAbsoluteError).eval [1, 2] [1, 4] = some 1 := by
  simp only [RealMetric.eval, mae_eq]
  norm_num

/-- The functions with a quotient are defined for non-constant values. -/
example : (Nimble.rSquared [1, 3] [2, 2]) = some 0 ∧ varianceFraction [1, 3] [1, 5] = some 2 := by
  unfold Nimble.rSquared varianceFraction populationVariance dotList
  norm_num

/-- The cosine similarity does not distinguish a multiple: 1 for a wrong prediction. -/
theorem C58_cosine_multiple : (RealMetric.cosineSimilarity).eval [3, 4] [6, 8] = some 1 := by
  have h1 : Real.sqrt 25 = 5 := by
    rw [show (25 : ℝ) = 5 ^ 2 by norm_num]; exact Real.sqrt_sq (by norm_num)
  have h2 : Real.sqrt 100 = 10 := by
    rw [show (100 : ℝ) = 10 ^ 2 by norm_num]; exact Real.sqrt_sq (by norm_num)
  simp only [RealMetric.eval, cosineSim, dotList]
  norm_num [h1, h2]

end Nimble
