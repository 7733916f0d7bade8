import Verif.Model.Confidence
import Verif.Props.MetricsReal
import Mathlib.Tactic.Positivity
import Mathlib.Tactic.Linarith
import Mathlib.Tactic.NormNum
import Mathlib.Tactic.FieldSimp

/-!
# C104: the confidence intervals of the errors of predictions
-/

namespace Nimble
namespace Confidence

/-! ## Specification -/

/-- What is used of the quantiles of Student's distribution: it is symmetric about zero, and larger
probabilities have larger quantiles. -/
structure Quantile (ppf : ℝ → Nat → ℝ) : Prop where
  median : ∀ d, 1 ≤ d → ppf (1 / 2) d = 0
  mono : ∀ d, 1 ≤ d → ∀ p q, 0 < p → p ≤ q → q < 1 → ppf p d ≤ ppf q d

/-- The quantiles of a function which is no distribution are enough for the examples. -/
noncomputable def linearPpf (p : ℝ) (_ : Nat) : ℝ := 20 * (p - 1 / 2)

/-- All values of an object without missing values. -/
def complete (l : List ℝ) : List (Option ℝ) := l.map some

/-- The standard error of the mean of `l`: the sample standard deviation over the root of the number. -/
noncomputable def standardError (l : List ℝ) : ℝ :=
  Real.sqrt ((l.map (fun x => (x - l.sum / l.length) ^ 2)).sum / (l.length - 1)) / Real.sqrt l.length

/-- The absolute and the squared errors. -/
noncomputable def absErrors (k p : List ℝ) : List ℝ := List.zipWith (fun a b => |b - a|) k p
noncomputable def sqErrors (k p : List ℝ) : List ℝ := List.zipWith (fun a b => (b - a) ^ 2) k p

/-- `inner` is inside of `outer`. -/
def Inside (inner outer : ℝ × ℝ) : Prop := outer.1 ≤ inner.1 ∧ inner.2 ≤ outer.2

/-! ## Lemmas -/

theorem quantile_linear : Quantile linearPpf := by
  constructor
  · intro d _; unfold linearPpf; norm_num
  · intro d _ p q _ h _; unfold linearPpf; linarith

theorem known_complete (l : List ℝ) : known (complete l) = l := by
  unfold known complete
  rw [List.filterMap_map]
  exact List.filterMap_some

theorem zipWith_lift2 (f : ℝ → ℝ → ℝ) : ∀ k p : List ℝ,
    List.zipWith (lift2 f) (complete k) (complete p) = complete (List.zipWith f k p)
  | [], p => by simp [complete]
  | k :: ks, [] => by simp [complete]
  | k :: ks, p :: ps => by
    have := zipWith_lift2 f ks ps
    unfold complete at this ⊢
    simp only [List.map_cons, List.zipWith_cons_cons, this]
    rfl

theorem nanMean_complete {l : List ℝ} (h : l ≠ []) : nanMean (complete l) = some (l.sum / l.length) := by
  unfold nanMean
  rw [known_complete, if_neg h]

theorem sum_sq_nonneg (l : List ℝ) (m : ℝ) : 0 ≤ (l.map (fun x => (x - m) ^ 2)).sum :=
  sum_nonneg' (fun x => (x - m) ^ 2) (fun x => sq_nonneg _) l

theorem sampleSd_complete {l : List ℝ} (h : 2 ≤ l.length) :
    sampleSd (complete l) =
      some (Real.sqrt ((l.map (fun x => (x - l.sum / l.length) ^ 2)).sum / (l.length - 1))) := by
  unfold sampleSd npSqrt
  rw [known_complete, if_neg (by omega), if_neg]
  have h1 : (2 : ℝ) ≤ (l.length : ℝ) := by exact_mod_cast h
  exact not_lt.2 (div_nonneg (sum_sq_nonneg l _) (by linarith))

theorem bounds_eq (ppf : ℝ → Nat → ℝ) (m s : ℝ) (n : Nat) (c : ℝ) :
    bounds ppf m s n c = (m - ppf (1 - (1 - c) / 2) (n - 1) * (s / Real.sqrt n),
      m + ppf (1 - (1 - c) / 2) (n - 1) * (s / Real.sqrt n)) := rfl

theorem quantile_nonneg {ppf : ℝ → Nat → ℝ} (hq : Quantile ppf) {c : ℝ} (h0 : 0 ≤ c) (h1 : c < 1) {d : Nat}
    (hd : 1 ≤ d) : 0 ≤ ppf (1 - (1 - c) / 2) d := by
  have := hq.mono d hd (1 / 2) (1 - (1 - c) / 2) (by norm_num) (by linarith) (by linarith)
  rwa [hq.median d hd] at this

theorem quantile_le {ppf : ℝ → Nat → ℝ} (hq : Quantile ppf) {c c' : ℝ} (h0 : 0 ≤ c) (h : c ≤ c') (h1 : c' < 1)
    {d : Nat} (hd : 1 ≤ d) : ppf (1 - (1 - c) / 2) d ≤ ppf (1 - (1 - c') / 2) d :=
  hq.mono d hd _ _ (by linarith) (by linarith) (by linarith)

theorem mae_interval_eq (ppf : ℝ → Nat → ℝ) {k p : List ℝ} (hl : k.length = p.length) (h2 : 2 ≤ k.length) (c : ℝ) :
    maeInterval ppf (complete k) (complete p) c =
      (some (mae k p - ppf (1 - (1 - c) / 2) (k.length - 1) * standardError (absErrors k p)),
       some (mae k p + ppf (1 - (1 - c) / 2) (k.length - 1) * standardError (absErrors k p))) := by
  have he : List.zipWith (fun a b : ℝ => |a - b|) k p = absErrors k p := by
    unfold absErrors
    congr 1
    funext a b
    exact abs_sub_comm a b
  have hlen : (absErrors k p).length = k.length := by
    unfold absErrors
    rw [List.length_zipWith, hl, min_self]
  have hm : mae k p = (absErrors k p).sum / (absErrors k p).length := by
    rw [mae_eq, hlen, hl]
    congr 2
    unfold absErrors
    rw [List.zip_eq_zipWith, List.map_zipWith]
  have hne : absErrors k p ≠ [] := by
    intro e
    rw [e] at hlen
    simp at hlen
    omega
  unfold maeInterval
  rw [zipWith_lift2, he]
  dsimp only
  rw [nanMean_complete hne, sampleSd_complete (by omega)]
  unfold helper
  dsimp only
  rw [bounds_eq]
  have : (complete (absErrors k p)).length = k.length := by unfold complete; rw [List.length_map, hlen]
  rw [this]
  unfold standardError
  rw [hm, hlen]

theorem rmse_interval_eq (ppf : ℝ → Nat → ℝ) {k p : List ℝ} (hl : k.length = p.length) (h2 : 2 ≤ k.length) (c : ℝ) :
    rmseInterval ppf (complete k) (complete p) c =
      (npSqrt ((sqErrors k p).sum / k.length -
        ppf (1 - (1 - c) / 2) (k.length - 1) * standardError (sqErrors k p)),
       npSqrt ((sqErrors k p).sum / k.length +
        ppf (1 - (1 - c) / 2) (k.length - 1) * standardError (sqErrors k p))) := by
  have he : List.zipWith (fun a b : ℝ => (a - b) ^ 2) k p = sqErrors k p := by
    unfold sqErrors
    congr 1
    funext a b
    ring
  have hlen : (sqErrors k p).length = k.length := by
    unfold sqErrors
    rw [List.length_zipWith, hl, min_self]
  have hne : sqErrors k p ≠ [] := by
    intro e
    rw [e] at hlen
    simp at hlen
    omega
  unfold rmseInterval
  rw [zipWith_lift2, he]
  dsimp only
  rw [nanMean_complete hne, sampleSd_complete (by omega)]
  unfold helper
  dsimp only
  rw [bounds_eq]
  have : (complete (sqErrors k p)).length = k.length := by unfold complete; rw [List.length_map, hlen]
  rw [this]
  unfold standardError
  rw [hlen]

theorem rmse_sq {k p : List ℝ} (hl : k.length = p.length) :
    rmse k p = Real.sqrt ((sqErrors k p).sum / k.length) := by
  rw [rmse_eq, hl]
  congr 3
  unfold sqErrors
  rw [List.zip_eq_zipWith, List.map_zipWith]

theorem standardError_nonneg (l : List ℝ) : 0 ≤ standardError l :=
  div_nonneg (Real.sqrt_nonneg _) (Real.sqrt_nonneg _)

theorem countP_npNe : ∀ k p : List ℝ, (((List.zipWith npNe (complete k) (complete p)).countP id : Nat) : ℝ) =
    ((k.zip p).map (fun ap => if ap.1 = ap.2 then (0 : ℝ) else 1)).sum
  | [], p => by simp [complete]
  | k :: ks, [] => by simp [complete]
  | k :: ks, p :: ps => by
    have ih := countP_npNe ks ps
    unfold complete at ih ⊢
    rw [List.map_cons, List.map_cons, List.zipWith_cons_cons, List.countP_cons, Nat.cast_add, ih,
      List.zip_cons_cons, List.map_cons, List.sum_cons, add_comm]
    congr 1
    unfold npNe
    by_cases h : k = p <;> simp [h]

theorem fraction_interval_eq (ppf : ℝ → Nat → ℝ) {k p : List ℝ} (hl : k.length = p.length) (c : ℝ) :
    fractionInterval ppf (complete k) (complete p) c =
      (fracIncorrect k p - ppf (1 - (1 - c) / 2) (k.length - 1) *
        (Real.sqrt (fracIncorrect k p * (1 - fracIncorrect k p)) / Real.sqrt k.length),
       fracIncorrect k p + ppf (1 - (1 - c) / 2) (k.length - 1) *
        (Real.sqrt (fracIncorrect k p * (1 - fracIncorrect k p)) / Real.sqrt k.length)) := by
  have hlen : (List.zipWith npNe (complete k) (complete p)).length = k.length := by
    unfold complete
    rw [List.length_zipWith, List.length_map, List.length_map, hl, min_self]
  have hf : (((List.zipWith npNe (complete k) (complete p)).countP id : Nat) : ℝ) /
      ((List.zipWith npNe (complete k) (complete p)).length : Nat) = fracIncorrect k p := by
    rw [countP_npNe, hlen, fracIncorrect_eq, hl]
  unfold fractionInterval fractionBounds
  dsimp only
  rw [hf, bounds_eq, hlen]

/-! ## Theorems -/

/-- C104. The interval of the mean absolute error is centred at the mean absolute error, its half-width is
the quantile times the standard error of the absolute errors, and it contains the mean absolute error;
an interval of a larger confidence contains that of a smaller one; swapping known and predicted values
does not matter. -/
theorem C104_mae {ppf : ℝ → Nat → ℝ} (hq : Quantile ppf) {k p : List ℝ} (hl : k.length = p.length)
    (h2 : 2 ≤ k.length) {c : ℝ} (h0 : 0 ≤ c) (h1 : c < 1) :
    ∃ low high, maeInterval ppf (complete k) (complete p) c = (some low, some high) ∧
      low ≤ mae k p ∧ mae k p ≤ high ∧ mae k p - low = high - mae k p ∧
      high - mae k p = ppf (1 - (1 - c) / 2) (k.length - 1) * standardError (absErrors k p) ∧
      maeInterval ppf (complete p) (complete k) c = (some low, some high) ∧
      (∀ c', c ≤ c' → c' < 1 → ∃ low' high', maeInterval ppf (complete k) (complete p) c' =
        (some low', some high') ∧ Inside (low, high) (low', high')) := by
  have hd : 1 ≤ k.length - 1 := by omega
  have hn := mul_nonneg (quantile_nonneg hq h0 h1 hd) (standardError_nonneg (absErrors k p))
  refine ⟨_, _, mae_interval_eq ppf hl h2 c, by linarith, by linarith, by ring, by ring, ?_, ?_⟩
  · rw [mae_interval_eq ppf hl.symm (by omega) c, ← hl]
    have he : absErrors p k = absErrors k p := by
      unfold absErrors
      rw [List.zipWith_comm]
      simp only [abs_sub_comm]
    have hm : mae p k = mae k p := by
      rw [mae_eq, mae_eq, hl, List.zip_eq_zipWith, List.zip_eq_zipWith, List.map_zipWith, List.map_zipWith]
      congr 2
    rw [he, hm]
  · intro c' hc hc1
    refine ⟨_, _, mae_interval_eq ppf hl h2 c', ?_⟩
    have := mul_le_mul_of_nonneg_right (quantile_le hq h0 hc hc1 hd) (standardError_nonneg (absErrors k p))
    constructor
    · dsimp only; linarith
    · dsimp only; linarith

/-- C104. The interval of the root mean square error contains it, and its upper end is always defined;
missing: the lower end may be nan (`C104_rmse_violated`), exactly if the half-width of the interval of
the mean squared error is larger than the mean squared error. -/
theorem C104_rmse_partial {ppf : ℝ → Nat → ℝ} (hq : Quantile ppf) {k p : List ℝ} (hl : k.length = p.length)
    (h2 : 2 ≤ k.length) {c : ℝ} (h0 : 0 ≤ c) (h1 : c < 1) :
    (∃ high, (rmseInterval ppf (complete k) (complete p) c).2 = some high ∧ rmse k p ≤ high ∧
      high ^ 2 = (sqErrors k p).sum / k.length +
        ppf (1 - (1 - c) / 2) (k.length - 1) * standardError (sqErrors k p)) ∧
    (∀ low, (rmseInterval ppf (complete k) (complete p) c).1 = some low → 0 ≤ low ∧ low ≤ rmse k p ∧
      low ^ 2 = (sqErrors k p).sum / k.length -
        ppf (1 - (1 - c) / 2) (k.length - 1) * standardError (sqErrors k p)) ∧
    ((rmseInterval ppf (complete k) (complete p) c).1 = none ↔
      (sqErrors k p).sum / k.length < ppf (1 - (1 - c) / 2) (k.length - 1) * standardError (sqErrors k p)) := by
  have hd : 1 ≤ k.length - 1 := by omega
  have hn := mul_nonneg (quantile_nonneg hq h0 h1 hd) (standardError_nonneg (sqErrors k p))
  have hs : 0 ≤ (sqErrors k p).sum / k.length := by
    apply div_nonneg _ (by positivity)
    apply List.sum_nonneg
    intro x hx
    unfold sqErrors at hx
    rw [← List.map_uncurry_zip_eq_zipWith] at hx
    obtain ⟨q, _, rfl⟩ := List.mem_map.1 hx
    exact sq_nonneg _
  rw [rmse_interval_eq ppf hl h2 c, rmse_sq hl]
  generalize (sqErrors k p).sum / k.length = m at *
  generalize ppf (1 - (1 - c) / 2) (k.length - 1) * standardError (sqErrors k p) = w at *
  dsimp only
  unfold npSqrt
  refine ⟨⟨_, if_neg (by linarith), Real.sqrt_le_sqrt (by linarith), Real.sq_sqrt (by linarith)⟩, ?_, ?_⟩
  · intro low h
    split at h
    · cases h
    · rename_i hneg
      cases h
      exact ⟨Real.sqrt_nonneg _, Real.sqrt_le_sqrt (by linarith), Real.sq_sqrt (by linarith)⟩
  · constructor
    · intro h
      split at h
      · linarith
      · cases h
    · intro h
      rw [if_pos (by linarith)]

/-- C104. The interval of the fraction of incorrect predictions is centred at the fraction and contains
it, its half-width is the quantile times the standard error; missing: it is not inside of [0, 1] (`C104_fraction_violated`). -/
theorem C104_fraction_partial {ppf : ℝ → Nat → ℝ} (hq : Quantile ppf) {k p : List ℝ} (hl : k.length = p.length)
    (h2 : 2 ≤ k.length) {c : ℝ} (h0 : 0 ≤ c) (h1 : c < 1) :
    (fractionInterval ppf (complete k) (complete p) c).1 ≤ fracIncorrect k p ∧
    fracIncorrect k p ≤ (fractionInterval ppf (complete k) (complete p) c).2 ∧
    (fractionInterval ppf (complete k) (complete p) c).1 + (fractionInterval ppf (complete k) (complete p) c).2
      = 2 * fracIncorrect k p ∧
    (fractionInterval ppf (complete k) (complete p) c).2 - fracIncorrect k p =
      ppf (1 - (1 - c) / 2) (k.length - 1) *
        (Real.sqrt (fracIncorrect k p * (1 - fracIncorrect k p)) / Real.sqrt k.length) ∧
    (∀ c', c ≤ c' → c' < 1 → Inside (fractionInterval ppf (complete k) (complete p) c)
      (fractionInterval ppf (complete k) (complete p) c')) := by
  have hd : 1 ≤ k.length - 1 := by omega
  have hse : 0 ≤ Real.sqrt (fracIncorrect k p * (1 - fracIncorrect k p)) / Real.sqrt k.length :=
    div_nonneg (Real.sqrt_nonneg _) (Real.sqrt_nonneg _)
  have hn := mul_nonneg (quantile_nonneg hq h0 h1 hd) hse
  refine ⟨?_, ?_, ?_, ?_, ?_⟩
  · rw [fraction_interval_eq ppf hl]; dsimp only; linarith
  · rw [fraction_interval_eq ppf hl]; dsimp only; linarith
  · rw [fraction_interval_eq ppf hl]; dsimp only; ring
  · rw [fraction_interval_eq ppf hl]; dsimp only; ring
  · intro c' hc hc1
    have := mul_le_mul_of_nonneg_right (quantile_le hq h0 hc hc1 hd) hse
    rw [fraction_interval_eq ppf hl, fraction_interval_eq ppf hl]
    constructor
    · dsimp only; linarith
    · dsimp only; linarith

/-- C104. If all predictions are wrong by the same amount (none, for perfect ones), the intervals consist
of that amount only. -/
theorem C104_equal_errors (ppf : ℝ → Nat → ℝ) {k p : List ℝ} (hl : k.length = p.length) (h2 : 2 ≤ k.length)
    {a : ℝ} (ha : ∀ q ∈ k.zip p, |q.2 - q.1| = a) (c : ℝ) :
    maeInterval ppf (complete k) (complete p) c = (some a, some a) ∧
    rmseInterval ppf (complete k) (complete p) c = (some a, some a) := by
  have hk : (k.length : ℝ) ≠ 0 := by
    have : k.length ≠ 0 := by omega
    exact_mod_cast this
  have hrep : ∀ (f : ℝ → ℝ → ℝ) (b : ℝ), (∀ q ∈ k.zip p, f q.1 q.2 = b) →
      List.zipWith f k p = List.replicate k.length b := by
    intro f b h
    rw [List.eq_replicate_iff]
    refine ⟨by rw [List.length_zipWith, hl, min_self], ?_⟩
    intro x hx
    rw [← List.map_uncurry_zip_eq_zipWith] at hx
    obtain ⟨q, hqm, rfl⟩ := List.mem_map.1 hx
    exact h q hqm
  have hse : ∀ b : ℝ, standardError (List.replicate k.length b) = 0 := by
    intro b
    unfold standardError
    rw [List.length_replicate, List.sum_replicate, nsmul_eq_mul, List.map_replicate, List.sum_replicate,
      mul_div_cancel_left₀ _ hk]
    simp
  have hmean : ∀ b : ℝ, (List.replicate k.length b).sum / k.length = b := by
    intro b
    rw [List.sum_replicate, nsmul_eq_mul, mul_div_cancel_left₀ _ hk]
  have h1 : absErrors k p = List.replicate k.length a := hrep _ a ha
  have h3 : sqErrors k p = List.replicate k.length (a ^ 2) :=
    hrep _ (a ^ 2) (fun q hqm => by rw [← ha q hqm, sq_abs])
  have ha0 : 0 ≤ a := by
    have hz : k.zip p ≠ [] := by
      intro e
      have := congrArg List.length e
      rw [List.length_zip, ← hl, min_self, List.length_nil] at this
      omega
    obtain ⟨q, hqm⟩ := List.exists_mem_of_ne_nil _ hz
    rw [← ha q hqm]
    exact abs_nonneg _
  have hm : mae k p = a := by
    rw [mae_eq, ← hl, List.zip_eq_zipWith, List.map_zipWith]
    exact (congrArg (fun l : List ℝ => l.sum / k.length) h1).trans (hmean a)
  have hs : npSqrt (a ^ 2) = some a := by
    unfold npSqrt
    rw [if_neg (not_lt.2 (sq_nonneg a)), Real.sqrt_sq ha0]
  constructor
  · rw [mae_interval_eq ppf hl h2, h1, hse, hm]
    simp
  · rw [rmse_interval_eq ppf hl h2, h3, hse, hmean]
    simp [hs]

/-! ## Violations -/

/-- C104 is violated by the code: if one of two predictions is wrong, the lower end of the interval of the
root mean square error is nan for every usual confidence (the quantile for one degree of freedom is 1
for a confidence of 0.5 and grows with it). -/
theorem C104_rmse_violated (ppf : ℝ → Nat → ℝ) {b c : ℝ} (hb : b ≠ 0) (hc : 1 < ppf (1 - (1 - c) / 2) 1) :
    (rmseInterval ppf (complete [0, 0]) (complete [0, b]) c).1 = none := by
  rw [rmse_interval_eq ppf (k := [0, 0]) (p := [0, b]) rfl (by simp)]
  have hpos : 0 < b ^ 2 / 2 := by positivity
  have hse : standardError (sqErrors [0, 0] [0, b]) = b ^ 2 / 2 := by
    unfold standardError sqErrors
    rw [← Real.sqrt_div (by simp; positivity), Real.sqrt_eq_iff_mul_self_eq (by simp; positivity) hpos.le]
    simp
    ring
  have hsum : (sqErrors [0, 0] [0, b]).sum / (([0, 0] : List ℝ).length : Nat) = b ^ 2 / 2 := by
    simp [sqErrors]
  rw [hse, hsum]
  unfold npSqrt
  rw [if_pos]
  have := mul_lt_mul_of_pos_right hc hpos
  simpa using this

/-- C104 is violated by the code: the ends of the interval of the fraction of incorrect predictions can
be less than 0 and more than 1. -/
theorem C104_fraction_violated (ppf : ℝ → Nat → ℝ) {c : ℝ} (hc : 2 ≤ ppf (1 - (1 - c) / 2) 1) :
    (fractionInterval ppf (complete [0, 0]) (complete [0, 1]) c).1 < 0 ∧
    1 < (fractionInterval ppf (complete [0, 0]) (complete [0, 1]) c).2 := by
  rw [fraction_interval_eq ppf (k := [0, 0]) (p := [0, 1]) rfl]
  have hf : fracIncorrect [0, 0] [0, 1] = 1 / 2 := by
    rw [fracIncorrect_eq]
    norm_num
  have hs : Real.sqrt (1 / 2 * (1 - 1 / 2)) = 1 / 2 := by
    rw [Real.sqrt_eq_iff_mul_self_eq (by norm_num) (by norm_num)]
    norm_num
  have h2 : Real.sqrt ((([0, 0] : List ℝ).length : Nat) : ℝ) < 2 := by
    rw [Real.sqrt_lt' (by norm_num)]
    norm_num
  have h0 : 0 < Real.sqrt ((([0, 0] : List ℝ).length : Nat) : ℝ) := by
    apply Real.sqrt_pos.2
    norm_num
  have hw : 1 / 2 < ppf (1 - (1 - c) / 2) 1 * (1 / 2 / Real.sqrt ((([0, 0] : List ℝ).length : Nat) : ℝ)) := by
    rw [← mul_div_assoc, lt_div_iff₀ h0]
    linarith
  rw [hf, hs]
  have e : ([0, 0] : List ℝ).length - 1 = 1 := rfl
  rw [e]
  constructor
  · dsimp only; linarith
  · dsimp only; linarith

/-- C104 is violated by the code: points with a missing value are not used for the error but count as
observations: the number of degrees of freedom and the divisor of the standard error are those of all points. -/
theorem C104_missing_violated (ppf : ℝ → Nat → ℝ) {k p : List ℝ} (hl : k.length = p.length) (h2 : 2 ≤ k.length)
    (m : Nat) (c : ℝ) :
    maeInterval ppf (complete k ++ List.replicate m none) (complete p ++ List.replicate m none) c =
      (some (mae k p - ppf (1 - (1 - c) / 2) (k.length + m - 1) *
        (standardError (absErrors k p) * Real.sqrt k.length / Real.sqrt (k.length + m : Nat))),
       some (mae k p + ppf (1 - (1 - c) / 2) (k.length + m - 1) *
        (standardError (absErrors k p) * Real.sqrt k.length / Real.sqrt (k.length + m : Nat)))) := by
  have he : List.zipWith (fun a b : ℝ => |a - b|) k p = absErrors k p := by
    unfold absErrors
    congr 1
    funext a b
    exact abs_sub_comm a b
  have hlen : (absErrors k p).length = k.length := by
    unfold absErrors
    rw [List.length_zipWith, hl, min_self]
  have hm : mae k p = (absErrors k p).sum / (absErrors k p).length := by
    rw [mae_eq, hlen, hl]
    congr 2
    unfold absErrors
    rw [List.zip_eq_zipWith, List.map_zipWith]
  have hz : List.zipWith (lift2 fun a b => |a - b|) (complete k ++ List.replicate m none)
      (complete p ++ List.replicate m none) = complete (absErrors k p) ++ List.replicate m none := by
    rw [List.zipWith_append (by unfold complete; simp [hl]), zipWith_lift2, he, List.zipWith_replicate, min_self]
    rfl
  have hkn : known (complete (absErrors k p) ++ List.replicate m none) = absErrors k p := by
    have := known_complete (absErrors k p)
    unfold known at this ⊢
    rw [List.filterMap_append, this]
    simp
  have hne : absErrors k p ≠ [] := by
    intro e
    rw [e] at hlen
    simp at hlen
    omega
  have hmean := nanMean_complete hne
  have hsd := sampleSd_complete (l := absErrors k p) (by omega)
  unfold nanMean at hmean
  unfold sampleSd at hsd
  rw [known_complete] at hmean hsd
  have hk : Real.sqrt (k.length : Nat) ≠ 0 := by
    apply (Real.sqrt_pos.2 _).ne'
    have : 0 < k.length := by omega
    exact_mod_cast this
  unfold maeInterval
  rw [hz]
  dsimp only
  unfold nanMean sampleSd
  rw [hkn, hmean, hsd]
  unfold helper
  dsimp only
  rw [bounds_eq, ← hm]
  have hL : (complete (absErrors k p) ++ List.replicate m none).length = k.length + m := by
    unfold complete
    rw [List.length_append, List.length_map, hlen, List.length_replicate]
  rw [hL]
  have hS : standardError (absErrors k p) * Real.sqrt k.length =
      Real.sqrt (((absErrors k p).map (fun x => (x - mae k p) ^ 2)).sum / ((absErrors k p).length - 1)) := by
    unfold standardError
    rw [hm, hlen, div_mul_cancel₀ _ hk]
  rw [hS]

/-- C104 is violated by the code: missing values are counted as incorrect predictions; and if the known
values are in a feature and the predicted ones in a point, every value is compared with every other:
perfect predictions have an interval around 1/2 instead of 0. -/
theorem C104_wrong_fraction_violated (ppf : ℝ → Nat → ℝ) (c : ℝ) :
    (fractionInterval ppf [some 0, none] [some 0, none] c).1 +
      (fractionInterval ppf [some 0, none] [some 0, none] c).2 = 2 * (1 / 2) ∧
    (fractionIntervalCross ppf (complete [0, 1]) (complete [0, 1]) c).1 +
      (fractionIntervalCross ppf (complete [0, 1]) (complete [0, 1]) c).2 = 2 * (1 / 2) := by
  constructor
  · unfold fractionInterval fractionBounds
    dsimp only
    rw [bounds_eq]
    dsimp only
    have : (List.zipWith npNe [some 0, none] [some 0, none]).countP id = 1 := by
      simp [npNe]
    rw [this]
    simp only [List.zipWith_cons_cons, List.zipWith_nil_left, List.length_cons, List.length_nil]
    norm_num
  · unfold fractionIntervalCross fractionBounds
    dsimp only
    rw [bounds_eq]
    dsimp only
    have : ((complete [0, 1]).flatMap (fun a => (complete [0, 1]).map (npNe a))).countP id = 2 := by
      simp [npNe, complete]
    rw [this]
    have : ((complete [0, 1]).flatMap (fun a => (complete [0, 1]).map (npNe a))).length = 4 := by
      simp [complete]
    rw [this]
    norm_num

/-! ## Concrete cases -/

/-- A case of `C104_mae`, `C104_rmse_partial` and `C104_fraction_partial`. -/
example : ∃ low high, maeInterval linearPpf (complete [0, 0, 1]) (complete [0, 2, 2]) (95 / 100) =
    (some low, some high) ∧ low ≤ 1 ∧ 1 ≤ high := by
  obtain ⟨low, high, h, h1, h2, _⟩ := C104_mae (ppf := linearPpf) quantile_linear
    (k := [0, 0, 1]) (p := [0, 2, 2]) rfl (by simp) (c := 95 / 100) (by norm_num) (by norm_num)
  have hm : mae [0, 0, 1] [0, 2, 2] = 1 := by
    rw [mae_eq]
    norm_num
  rw [hm] at h1 h2
  exact ⟨low, high, h, h1, h2⟩

/-- A case of `C104_equal_errors`. -/
example : maeInterval linearPpf (complete [0, 1]) (complete [1, 0]) (95 / 100) = (some 1, some 1) :=
  (C104_equal_errors linearPpf (k := [0, 1]) (p := [1, 0]) rfl (by simp) (a := 1) (by simp) _).1

/-- A case of the hypothesis of `C104_rmse_violated` and `C104_fraction_violated`. -/
example : 2 ≤ linearPpf (1 - (1 - 95 / 100) / 2) 1 := by
  unfold linearPpf
  norm_num

end Confidence
end Nimble
