import Verif.Model.Normalize
import Mathlib.Tactic.Linarith
import Mathlib.Tactic.FieldSimp
import Mathlib.Tactic.Positivity
import Mathlib.Tactic.Ring
import Mathlib.Tactic.NormNum
import Mathlib.Algebra.Order.Field.Basic

/-!
# C59: normalization – range, mean and standard deviation
-/

namespace Nimble

theorem mem_present {A : Type} {vs : List (Option A)} {x : A} : x ∈ present vs ↔ some x ∈ vs := by
  unfold present; simp

theorem present_mapVals {A : Type} (f : A → A) (vs : List (Option A)) :
    present (mapVals f vs) = (present vs).map f := by
  unfold present mapVals
  induction vs with
  | nil => rfl
  | cons a l ih =>
    cases a
    · exact ih
    · exact congrArg (f _ :: ·) ih

theorem mapVals_mapVals {A : Type} (f g : A → A) (vs : List (Option A)) :
    mapVals f (mapVals g vs) = mapVals (fun x => f (g x)) vs := by
  unfold mapVals
  simp [Function.comp_def]

/-- `m` is the least value. -/
def IsMin (l : List ℚ) (m : ℚ) : Prop := m ∈ l ∧ ∀ v ∈ l, m ≤ v

/-- `m` is the greatest value. -/
def IsMax (l : List ℚ) (m : ℚ) : Prop := m ∈ l ∧ ∀ v ∈ l, v ≤ m

theorem foldMin_some (l : List ℚ) (x : ℚ) :
    ∃ m, l.foldl (fun m v => some (match m with | none => v | some x => if v < x then v else x))
      (some x) = some m ∧ IsMin (x :: l) m := by
  induction l generalizing x with
  | nil => exact ⟨x, rfl, by simp [IsMin]⟩
  | cons a l ih =>
    rw [List.foldl_cons]
    dsimp only
    by_cases h : a < x
    · rw [if_pos h]
      obtain ⟨m, h1, h2, h3⟩ := ih a
      refine ⟨m, h1, ?_, ?_⟩
      · exact List.mem_cons_of_mem _ h2
      · intro v hv
        rcases List.mem_cons.1 hv with rfl | hv
        · exact le_trans (h3 a (by simp)) h.le
        · exact h3 v hv
    · rw [if_neg h]
      obtain ⟨m, h1, h2, h3⟩ := ih x
      refine ⟨m, h1, ?_, ?_⟩
      · rcases List.mem_cons.1 h2 with e | e
        · simp [e]
        · simp [e]
      · intro v hv
        rcases List.mem_cons.1 hv with rfl | hv
        · exact h3 _ (by simp)
        · rcases List.mem_cons.1 hv with rfl | hv
          · exact le_trans (h3 x (by simp)) (not_lt.1 h)
          · exact h3 v (by simp [hv])

theorem foldMax_some (l : List ℚ) (x : ℚ) :
    ∃ m, l.foldl (fun m v => some (match m with | none => v | some x => if x < v then v else x))
      (some x) = some m ∧ IsMax (x :: l) m := by
  induction l generalizing x with
  | nil => exact ⟨x, rfl, by simp [IsMax]⟩
  | cons a l ih =>
    rw [List.foldl_cons]
    dsimp only
    by_cases h : x < a
    · rw [if_pos h]
      obtain ⟨m, h1, h2, h3⟩ := ih a
      refine ⟨m, h1, ?_, ?_⟩
      · exact List.mem_cons_of_mem _ h2
      · intro v hv
        rcases List.mem_cons.1 hv with rfl | hv
        · exact le_trans h.le (h3 a (by simp))
        · exact h3 v hv
    · rw [if_neg h]
      obtain ⟨m, h1, h2, h3⟩ := ih x
      refine ⟨m, h1, ?_, ?_⟩
      · rcases List.mem_cons.1 h2 with e | e
        · simp [e]
        · simp [e]
      · intro v hv
        rcases List.mem_cons.1 hv with rfl | hv
        · exact h3 _ (by simp)
        · rcases List.mem_cons.1 hv with rfl | hv
          · exact le_trans (not_lt.1 h) (h3 x (by simp))
          · exact h3 v (by simp [hv])

theorem nanMin_spec {vs : List (Option ℚ)} (h : present vs ≠ []) :
    ∃ m, nanMin vs = some m ∧ IsMin (present vs) m := by
  unfold nanMin
  cases hp : present vs with
  | nil => exact absurd hp h
  | cons a l => exact foldMin_some l a

theorem nanMax_spec {vs : List (Option ℚ)} (h : present vs ≠ []) :
    ∃ m, nanMax vs = some m ∧ IsMax (present vs) m := by
  unfold nanMax
  cases hp : present vs with
  | nil => exact absurd hp h
  | cons a l => exact foldMax_some l a

theorem rangeMap_eq (start stop mn spread : ℚ) (vs : List (Option ℚ)) :
    rangeMap start stop mn spread vs
      = mapVals (fun x => start + (stop - start) * (x - mn) / (if spread = 0 then 1 else spread)) vs := by
  unfold rangeMap
  dsimp only
  by_cases h : spread = 0
  · rw [if_pos h, if_pos h, mapVals_mapVals, mapVals_mapVals]
    congr 1; funext x; ring
  · rw [if_neg h, if_neg h, mapVals_mapVals, mapVals_mapVals, mapVals_mapVals]
    congr 1; funext x; ring

/-- C59. `rangeNormalize(start, end)` applies one linear function to the elements of both objects,
determined by the least and the greatest value `mn`, `mx` of the first one; missing values stay
missing.  The least value becomes `start`, the greatest `end` (or both `start` if they are equal), and
the order of the values is preserved, so that all elements of the first object lie between `start` and
`end`. -/
theorem C59_range {start stop : ℚ} (hs : start < stop) {v1 : List (Option ℚ)} (h : present v1 ≠ [])
    (v2 : List (Option ℚ)) :
    ∃ (mn mx : ℚ) (f : ℚ → ℚ), IsMin (present v1) mn ∧ IsMax (present v1) mx ∧
      rangeNormalize start stop v1 v2 = (v1.map (Option.map f), v2.map (Option.map f)) ∧
      f mn = start ∧ (mn < mx → f mx = stop) ∧ (∀ x y, x < y → f x < f y) ∧
      (∀ x, some x ∈ v1 → start ≤ f x ∧ f x ≤ stop) ∧
      (mn < mx → ∀ x, f x = start + (stop - start) * ((x - mn) / (mx - mn))) := by
  obtain ⟨mn, h1, h2⟩ := nanMin_spec h
  obtain ⟨mx, h3, h4⟩ := nanMax_spec h
  have hle : mn ≤ mx := h2.2 mx h4.1
  have hd : 0 < stop - start := by linarith
  refine ⟨mn, mx, fun x => start + (stop - start) * (x - mn) / (if mx - mn = 0 then 1 else mx - mn),
    h2, h4, ?_, ?_, ?_, ?_, ?_, ?_⟩
  · unfold rangeNormalize
    rw [h1, h3]
    dsimp only
    rw [rangeMap_eq, rangeMap_eq]
    rfl
  · simp
  · intro hlt
    have : mx - mn ≠ 0 := by linarith [hlt] |> fun (h : 0 < mx - mn) => h.ne'
    simp only [this, if_false]
    rw [mul_div_assoc, div_self this]; ring
  · intro x y hxy
    have hden : 0 < (if mx - mn = 0 then (1 : ℚ) else mx - mn) := by
      by_cases e : mx - mn = 0
      · simp [e]
      · rw [if_neg e]; exact lt_of_le_of_ne (by linarith) (Ne.symm e)
    have : (stop - start) * (x - mn) / (if mx - mn = 0 then 1 else mx - mn)
        < (stop - start) * (y - mn) / (if mx - mn = 0 then 1 else mx - mn) := by
      apply div_lt_div_of_pos_right _ hden
      apply mul_lt_mul_of_pos_left _ hd
      linarith
    dsimp only
    linarith
  · intro x hx
    have hx' := mem_present.2 hx
    have hx1 := h2.2 x hx'
    have hx2 := h4.2 x hx'
    by_cases e : mx - mn = 0
    · have : x = mn := by linarith
      subst this
      simp [hs.le]
    · have hden : 0 < mx - mn := lt_of_le_of_ne (by linarith) (Ne.symm e)
      simp only [e, if_false]
      have a1 : 0 ≤ (stop - start) * (x - mn) / (mx - mn) := by
        apply div_nonneg _ hden.le
        apply mul_nonneg hd.le
        linarith
      have a2 : (stop - start) * (x - mn) / (mx - mn) ≤ stop - start := by
        rw [div_le_iff₀ hden]
        apply mul_le_mul_of_nonneg_left _ hd.le
        linarith
      constructor <;> linarith
  · intro hlt x
    have : mx - mn ≠ 0 := by linarith [hlt] |> fun (h : 0 < mx - mn) => h.ne'
    simp only [this, if_false]
    ring

/-- C59. `meanNormalize` subtracts the mean of the first object from every element of both; the values
of the first object have mean 0 afterwards. -/
theorem C59_mean {v1 : List (Option ℚ)} (h : present v1 ≠ []) (v2 : List (Option ℚ)) :
    ∃ m : ℚ, m * (present v1).length = (present v1).sum ∧
      meanNormalize v1 v2 = (v1.map (Option.map (· - m)), v2.map (Option.map (· - m))) ∧
      (present (meanNormalize v1 v2).1).sum = 0 := by
  have hl : ((present v1).length : ℚ) ≠ 0 := by
    exact_mod_cast (List.length_pos_iff.2 h).ne'
  have hm : nanMean v1 = some ((present v1).sum / (present v1).length) := by
    unfold nanMean; rw [if_neg h]
  have he : meanNormalize v1 v2 = (mapVals (· - (present v1).sum / (present v1).length) v1,
      mapVals (· - (present v1).sum / (present v1).length) v2) := by
    unfold meanNormalize; rw [hm]
  refine ⟨(present v1).sum / (present v1).length, div_mul_cancel₀ _ hl, he, ?_⟩
  rw [he, present_mapVals]
  have : ∀ (l : List ℚ) (c : ℚ), (l.map (· - c)).sum = l.sum - c * l.length := by
    intro l c
    induction l with
    | nil => simp
    | cons a l ih => simp only [List.map_cons, List.sum_cons, ih, List.length_cons]; push_cast; ring
  rw [this, div_mul_cancel₀ _ hl, sub_self]

theorem sum_sub_const (l : List ℝ) (c : ℝ) : (l.map (· - c)).sum = l.sum - c * l.length := by
  induction l with
  | nil => simp
  | cons a l ih => simp only [List.map_cons, List.sum_cons, ih, List.length_cons]; push_cast; ring

/-- C59. `meanStandardDeviationNormalize`: unless all values are equal, the first object has mean 0 and
(population) standard deviation 1 afterwards (the mean of the squares is 1), and the second object is normalized by the same linear
function; if all values are equal, only the mean is subtracted. -/
theorem C59_std {v1 : List (Option ℝ)} (h : present v1 ≠ []) (v2 : List (Option ℝ)) :
    ∃ m sd : ℝ, m * (present v1).length = (present v1).sum ∧
      ((∃ a ∈ present v1, ∃ b ∈ present v1, a ≠ b) →
        0 < sd ∧ stdNormalize v1 v2
          = (v1.map (Option.map (fun x => (x - m) / sd)), v2.map (Option.map (fun x => (x - m) / sd))) ∧
        (present (stdNormalize v1 v2).1).sum = 0 ∧
        ((present (stdNormalize v1 v2).1).map (fun x => x ^ 2)).sum / ((present v1).length : ℝ) = 1) ∧
      ((∀ a ∈ present v1, ∀ b ∈ present v1, a = b) →
        stdNormalize v1 v2 = (v1.map (Option.map (· - m)), v2.map (Option.map (· - m))) ∧
        ∀ a ∈ present (stdNormalize v1 v2).1, a = 0) := by
  have hl : (0 : ℝ) < (present v1).length := by exact_mod_cast List.length_pos_iff.2 h
  have hmean : realMean (present v1) * (present v1).length = (present v1).sum := by
    unfold realMean; exact div_mul_cancel₀ _ hl.ne'
  have hnn : ∀ l : List ℝ, ∀ c : ℝ, 0 ≤ (l.map (fun x => (x - c) ^ 2)).sum := by
    intro l c
    induction l with
    | nil => simp
    | cons a l ih => simp only [List.map_cons, List.sum_cons]; positivity
  have hzero : ∀ l : List ℝ, ∀ c : ℝ, (l.map (fun x => (x - c) ^ 2)).sum = 0 → ∀ x ∈ l, x = c := by
    intro l c
    induction l with
    | nil => intro _ x hx; cases hx
    | cons a l ih =>
      intro h0 x hx
      simp only [List.map_cons, List.sum_cons] at h0
      have h1 := hnn l c
      have h2 := sq_nonneg (a - c)
      rcases List.mem_cons.1 hx with rfl | hx
      · have : (x - c) ^ 2 = 0 := by linarith
        have := pow_eq_zero_iff (n := 2) (by norm_num) |>.1 this
        linarith
      · exact ih (by linarith) x hx
  have hsd0 : realStd (present v1) = 0 ↔ ∀ a ∈ present v1, a = realMean (present v1) := by
    unfold realStd
    rw [Real.sqrt_eq_zero (div_nonneg (hnn _ _) hl.le), div_eq_zero_iff]
    constructor
    · rintro (h0 | h0)
      · exact hzero _ _ h0
      · exact absurd h0 hl.ne'
    · intro ha
      left
      have : (present v1).map (fun x => (x - realMean (present v1)) ^ 2) = (present v1).map (fun _ => 0) := by
        apply List.map_congr_left
        intro a ha'
        rw [ha a ha']; ring
      rw [this]
      generalize present v1 = l
      induction l with
      | nil => rfl
      | cons a l ih => simpa using ih
  have hsd : realStd (present v1) ^ 2 * (present v1).length
      = ((present v1).map (fun x => (x - realMean (present v1)) ^ 2)).sum := by
    unfold realStd
    rw [Real.sq_sqrt (div_nonneg (hnn _ _) hl.le), div_mul_cancel₀ _ hl.ne']
  refine ⟨realMean (present v1), realStd (present v1), hmean, ?_, ?_⟩
  · rintro ⟨a, ha, b, hb, hab⟩
    have hne : realStd (present v1) ≠ 0 := by
      intro e
      have := hsd0.1 e
      exact hab ((this a ha).trans (this b hb).symm)
    have hpos : 0 < realStd (present v1) := lt_of_le_of_ne (Real.sqrt_nonneg _) (Ne.symm hne)
    have he : stdNormalize v1 v2
        = (v1.map (Option.map (fun x => (x - realMean (present v1)) / realStd (present v1))),
           v2.map (Option.map (fun x => (x - realMean (present v1)) / realStd (present v1)))) := by
      unfold stdNormalize
      rw [if_neg h]
      dsimp only
      rw [if_neg hne, mapVals_mapVals, mapVals_mapVals]
      rfl
    have hp : present (stdNormalize v1 v2).1
        = (present v1).map (fun x => (x - realMean (present v1)) / realStd (present v1)) := by
      rw [he]; exact present_mapVals _ _
    have hmean0 : (present (stdNormalize v1 v2).1).sum = 0 := by
      rw [hp]
      have : ∀ (l : List ℝ) (c s : ℝ), (l.map (fun x => (x - c) / s)).sum = (l.map (· - c)).sum / s := by
        intro l c s
        induction l with
        | nil => simp
        | cons a l ih => simp only [List.map_cons, List.sum_cons, ih]; ring
      rw [this, sum_sub_const, hmean]
      simp
    refine ⟨hpos, he, hmean0, ?_⟩
    rw [hp, List.map_map]
    have : ((present v1).map ((fun x : ℝ => x ^ 2) ∘
        (fun x => (x - realMean (present v1)) / realStd (present v1)))).sum
        = ((present v1).map (fun x => (x - realMean (present v1)) ^ 2)).sum / realStd (present v1) ^ 2 := by
      generalize present v1 = l
      generalize hm : realMean l = c
      generalize realStd l = s
      clear hm
      induction l with
      | nil => simp
      | cons a l ih => simp only [List.map_cons, List.sum_cons, ih, Function.comp]; ring
    rw [this, ← hsd]
    field_simp
  · intro hall
    have heq : ∀ a ∈ present v1, a = realMean (present v1) := by
      intro a ha
      have : present v1 = List.replicate (present v1).length a :=
        List.eq_replicate_of_mem (fun b hb => (hall b hb a ha))
      have hs : (present v1).sum = (present v1).length * a := by
        conv_lhs => rw [this]
        simp
      have : realMean (present v1) * (present v1).length = a * (present v1).length := by
        rw [hmean, hs]; ring
      exact (mul_right_cancel₀ hl.ne' this).symm
    have he : stdNormalize v1 v2 = (mapVals (· - realMean (present v1)) v1,
        mapVals (· - realMean (present v1)) v2) := by
      unfold stdNormalize
      rw [if_neg h]
      dsimp only
      rw [if_pos (hsd0.2 heq)]
    refine ⟨he, ?_⟩
    intro a ha
    rw [he, present_mapVals] at ha
    obtain ⟨x, hx, rfl⟩ := List.mem_map.1 ha
    rw [heq x hx, sub_self]

/-- The hypotheses are met: two different values and a missing one. -/
example : present [some (1 : ℝ), none, some 3] ≠ [] ∧
    ∃ a ∈ present [some (1 : ℝ), none, some 3], ∃ b ∈ present [some (1 : ℝ), none, some 3], a ≠ b :=
  ⟨by simp [present], 1, by simp [present], 3, by simp [present], by norm_num⟩
example : present [some (1 : ℚ), none, some 3] ≠ [] := by simp [present]

end Nimble
