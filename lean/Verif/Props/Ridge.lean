import Verif.Model.Ridge
import Mathlib.LinearAlgebra.Matrix.DotProduct
import Mathlib.LinearAlgebra.Matrix.ToLinearEquiv
import Mathlib.Tactic.Ring
import Mathlib.Tactic.Linarith
import Mathlib.Tactic.FinCases
import Mathlib.Tactic.NormNum

/-!
# C67: ridge regression
-/

namespace Nimble.Ridge
open Matrix

variable {K : Type} [Field K] [LinearOrder K] [IsStrictOrderedRing K]
variable {n m p t : Type} [Fintype n] [Fintype m] [DecidableEq m]

/-! ### Specification -/

/-- Sum of squared errors of the linear function `w`, plus `lamb` times the sum of squared weights. -/
def loss (X : Matrix n m K) (y : n → K) (lamb : K) (w : m → K) : K :=
  (∑ i, ((∑ j, X i j * w j) - y i) ^ 2) + lamb * ∑ j, w j ^ 2

/-! ### Lemmas -/

theorem gram_form (X : Matrix n m K) (lamb : K) (v : m → K) :
    v ⬝ᵥ (gram X lamb *ᵥ v) = (∑ i, (∑ j, X i j * v j) ^ 2) + lamb * ∑ j, v j ^ 2 := by
  unfold gram
  rw [add_mulVec, dotProduct_add, ← mulVec_mulVec, dotProduct_mulVec, vecMul_transpose, smul_mulVec,
    one_mulVec, dotProduct_smul, smul_eq_mul]
  congr 1
  · unfold dotProduct mulVec dotProduct
    exact Finset.sum_congr rfl (fun i _ => by ring)
  · unfold dotProduct
    congr 1
    exact Finset.sum_congr rfl (fun i _ => by ring)

theorem loss_expand (X : Matrix n m K) (y : n → K) (lamb : K) (w d : m → K) :
    loss X y lamb (w + d) = loss X y lamb w + 2 * (d ⬝ᵥ (gram X lamb *ᵥ w - Xᵀ *ᵥ y)) +
      d ⬝ᵥ (gram X lamb *ᵥ d) := by
  have h1 : d ⬝ᵥ (gram X lamb *ᵥ w - Xᵀ *ᵥ y) =
      (∑ i, (∑ j, X i j * d j) * ((∑ j, X i j * w j) - y i)) + lamb * ∑ j, d j * w j := by
    unfold gram
    rw [dotProduct_sub, add_mulVec, dotProduct_add, ← mulVec_mulVec, dotProduct_mulVec d Xᵀ,
      dotProduct_mulVec d Xᵀ, vecMul_transpose, smul_mulVec, one_mulVec, dotProduct_smul, smul_eq_mul]
    have h2 : (X *ᵥ d) ⬝ᵥ (X *ᵥ w) - (X *ᵥ d) ⬝ᵥ y =
        ∑ i, (∑ j, X i j * d j) * ((∑ j, X i j * w j) - y i) := by
      unfold dotProduct mulVec dotProduct
      rw [← Finset.sum_sub_distrib]
      exact Finset.sum_congr rfl (fun i _ => by ring)
    rw [← h2]
    unfold dotProduct
    ring
  rw [h1, gram_form]
  unfold loss
  have h3 : ∑ i, ((∑ j, X i j * (w + d) j) - y i) ^ 2 = (∑ i, ((∑ j, X i j * w j) - y i) ^ 2) +
      2 * (∑ i, (∑ j, X i j * d j) * ((∑ j, X i j * w j) - y i)) + ∑ i, (∑ j, X i j * d j) ^ 2 := by
    rw [Finset.mul_sum, ← Finset.sum_add_distrib, ← Finset.sum_add_distrib]
    refine Finset.sum_congr rfl (fun i _ => ?_)
    have : ∑ j, X i j * (w + d) j = (∑ j, X i j * w j) + ∑ j, X i j * d j := by
      rw [← Finset.sum_add_distrib]
      exact Finset.sum_congr rfl (fun j _ => by rw [Pi.add_apply]; ring)
    rw [this]; ring
  have h4 : ∑ j, (w + d) j ^ 2 = (∑ j, w j ^ 2) + 2 * (∑ j, d j * w j) + ∑ j, d j ^ 2 := by
    rw [Finset.mul_sum, ← Finset.sum_add_distrib, ← Finset.sum_add_distrib]
    exact Finset.sum_congr rfl (fun j _ => by rw [Pi.add_apply]; ring)
  rw [h3, h4]; ring

theorem train_ok {X : Matrix n m K} {Y : Matrix n p K} {lamb : K} {w : Matrix m p K}
    (h : train X Y lamb = .ok w) :
    (gram X lamb).det ≠ 0 ∧ w = ((gram X lamb)⁻¹ * Xᵀ) * Y := by
  unfold train inv at h
  by_cases hd : (gram X lamb).det = 0
  · rw [if_pos hd] at h; simp [bind, Except.bind] at h
  · rw [if_neg hd] at h
    simp only [bind, Except.bind, pure, Except.pure, Except.ok.injEq] at h
    exact ⟨hd, h.symm⟩

theorem normal {X : Matrix n m K} {Y : Matrix n p K} {lamb : K} {w : Matrix m p K}
    (h : train X Y lamb = .ok w) (c : p) :
    gram X lamb *ᵥ (fun j => w j c) = Xᵀ *ᵥ (fun i => Y i c) := by
  obtain ⟨hd, rfl⟩ := train_ok h
  have hu : IsUnit (gram X lamb).det := isUnit_iff_ne_zero.2 hd
  have : (gram X lamb) * (((gram X lamb)⁻¹ * Xᵀ) * Y) = Xᵀ * Y := by
    rw [Matrix.mul_assoc, Matrix.mul_nonsing_inv_cancel_left _ _ hu]
  ext j
  exact congrFun (congrFun this j) c

theorem gram_pos {X : Matrix n m K} {lamb : K} (hl : 0 ≤ lamb) (hd : (gram X lamb).det ≠ 0) {v : m → K}
    (hv : v ≠ 0) : 0 < v ⬝ᵥ (gram X lamb *ᵥ v) := by
  rw [gram_form]
  have h1 : 0 ≤ ∑ i, (∑ j, X i j * v j) ^ 2 := Finset.sum_nonneg (fun i _ => sq_nonneg _)
  have h2 : 0 ≤ ∑ j, v j ^ 2 := Finset.sum_nonneg (fun i _ => sq_nonneg _)
  rcases lt_or_eq_of_le (add_nonneg h1 (mul_nonneg hl h2)) with h | h
  · exact h
  · exfalso
    have h3 : ∑ i, (∑ j, X i j * v j) ^ 2 = 0 := by
      have := mul_nonneg hl h2; linarith
    have h4 : lamb * ∑ j, v j ^ 2 = 0 := by linarith
    have h5 : X *ᵥ v = 0 := by
      ext i
      have := (Finset.sum_eq_zero_iff_of_nonneg (fun i _ => sq_nonneg _)).1 h3 i (Finset.mem_univ _)
      exact pow_eq_zero_iff (two_ne_zero) |>.1 this
    have h6 : lamb • v = 0 := by
      rcases mul_eq_zero.1 h4 with h | h
      · rw [h, zero_smul]
      · have : v = 0 := by
          ext j
          have := (Finset.sum_eq_zero_iff_of_nonneg (fun i _ => sq_nonneg _)).1 h j (Finset.mem_univ _)
          exact pow_eq_zero_iff (two_ne_zero) |>.1 this
        exact absurd this hv
    have h7 : gram X lamb *ᵥ v = 0 := by
      unfold gram
      rw [add_mulVec, ← mulVec_mulVec, h5, mulVec_zero, smul_mulVec, one_mulVec, h6, add_zero]
    exact hd (exists_mulVec_eq_zero_iff.1 ⟨v, hv, h7⟩)

/-! ### C67 -/

/-- For each predicted feature the learned weights minimise the regularised squared error over all
weights, and are the only ones that do. -/
theorem C67_minimises {X : Matrix n m K} {Y : Matrix n p K} {lamb : K} {w : Matrix m p K} (hl : 0 ≤ lamb)
    (h : train X Y lamb = .ok w) (c : p) (w' : m → K) :
    loss X (fun i => Y i c) lamb (fun j => w j c) ≤ loss X (fun i => Y i c) lamb w' ∧
    (loss X (fun i => Y i c) lamb w' = loss X (fun i => Y i c) lamb (fun j => w j c) →
      w' = fun j => w j c) := by
  have hd := (train_ok h).1
  have he := loss_expand X (fun i => Y i c) lamb (fun j => w j c) (w' - fun j => w j c)
  rw [add_sub_cancel, normal h c, sub_self, dotProduct_zero, mul_zero, add_zero] at he
  by_cases hw : w' = fun j => w j c
  · subst hw; exact ⟨le_refl _, fun _ => rfl⟩
  · have hp := gram_pos hl hd (sub_ne_zero.2 hw)
    rw [he]
    exact ⟨by linarith, fun h => absurd h (by linarith)⟩

/-- With a positive penalty training never fails. -/
theorem C67_penalised_succeeds (X : Matrix n m K) (Y : Matrix n p K) {lamb : K} (hl : 0 < lamb) :
    ∃ w, train X Y lamb = .ok w := by
  have hd : (gram X lamb).det ≠ 0 := by
    intro hc
    obtain ⟨v, hv, h0⟩ := exists_mulVec_eq_zero_iff.2 hc
    have hf := gram_form X lamb v
    rw [h0, dotProduct_zero] at hf
    have h1 : 0 ≤ ∑ i, (∑ j, X i j * v j) ^ 2 := Finset.sum_nonneg (fun i _ => sq_nonneg _)
    have h2 : 0 ≤ ∑ j, v j ^ 2 := Finset.sum_nonneg (fun i _ => sq_nonneg _)
    have h3 : ∑ j, v j ^ 2 = 0 := by
      by_contra hne
      have : 0 < ∑ j, v j ^ 2 := lt_of_le_of_ne h2 (Ne.symm hne)
      have := mul_pos hl this
      linarith
    apply hv
    ext j
    have := (Finset.sum_eq_zero_iff_of_nonneg (fun i _ => sq_nonneg _)).1 h3 j (Finset.mem_univ _)
    exact pow_eq_zero_iff (two_ne_zero) |>.1 this
  unfold train inv
  rw [if_neg hd]
  exact ⟨_, rfl⟩

/-- Without penalty training succeeds exactly when no non-zero combination of the features vanishes on
all training points (ordinary least squares has a unique solution). -/
theorem C67_unpenalised_succeeds_iff (X : Matrix n m K) (Y : Matrix n p K) :
    (∃ w, train X Y 0 = .ok w) ↔ ∀ v : m → K, (∀ i, ∑ j, X i j * v j = 0) → v = 0 := by
  have hg : ∀ v : m → K, gram X 0 *ᵥ v = Xᵀ *ᵥ (X *ᵥ v) := by
    intro v
    unfold gram
    rw [zero_smul, add_zero, mulVec_mulVec]
  constructor
  · rintro ⟨w, hw⟩ v hv
    by_contra hne
    refine (train_ok hw).1 (exists_mulVec_eq_zero_iff.1 ⟨v, hne, ?_⟩)
    rw [hg, show X *ᵥ v = 0 from funext hv, mulVec_zero]
  · intro h
    have hd : (gram X 0).det ≠ 0 := by
      intro hc
      obtain ⟨v, hv, h0⟩ := exists_mulVec_eq_zero_iff.2 hc
      apply hv
      apply h
      have hf := gram_form X 0 v
      rw [h0, dotProduct_zero, zero_mul, add_zero] at hf
      intro i
      have := (Finset.sum_eq_zero_iff_of_nonneg (fun i _ => sq_nonneg _)).1 hf.symm i (Finset.mem_univ _)
      exact pow_eq_zero_iff (two_ne_zero) |>.1 this
    unfold train inv
    rw [if_neg hd]
    exact ⟨_, rfl⟩

/-- When it fails, the error is numpy's `LinAlgError`. -/
theorem C67_failure (X : Matrix n m K) (Y : Matrix n p K) {lamb : K} {e : Err}
    (h : train X Y lamb = .error e) : e = .ValueError := by
  unfold train inv at h
  by_cases hd : (gram X lamb).det = 0
  · rw [if_pos hd] at h
    simp only [bind, Except.bind, Except.error.injEq] at h
    exact h.symm
  · rw [if_neg hd] at h; simp [bind, Except.bind, pure, Except.pure] at h

/-- The prediction is the learned linear function of each point, on its own. -/
theorem C67_prediction (w : Matrix m p K) (X : Matrix t m K) (i : t) (c : p) :
    apply w X i c = ∑ j, X i j * w j c := by
  unfold apply
  rw [transpose_apply, mul_apply]
  exact Finset.sum_congr rfl (fun j _ => by rw [transpose_apply, transpose_apply, mul_comm])

/-- The order of the training points does not matter. -/
theorem C67_training_order {n' : Type} [Fintype n'] (σ : n' ≃ n) (X : Matrix n m K) (Y : Matrix n p K)
    (lamb : K) : train (X.submatrix σ id) (Y.submatrix σ id) lamb = train X Y lamb := by
  have hg : gram (X.submatrix σ id) lamb = gram X lamb := by
    unfold gram
    rw [transpose_submatrix, submatrix_mul_equiv, submatrix_id_id]
  unfold train
  rw [hg]
  congr 1
  funext i
  rw [transpose_submatrix, Matrix.mul_assoc, submatrix_mul_equiv, submatrix_id_id, ← Matrix.mul_assoc]

/-- Learning several predicted features at once is learning each on its own. -/
theorem C67_columns {X : Matrix n m K} {Y : Matrix n p K} {lamb : K} {w : Matrix m p K}
    (h : train X Y lamb = .ok w) (c : p) : train X (column Y c) lamb = .ok (column w c) := by
  obtain ⟨hd, rfl⟩ := train_ok h
  unfold train inv
  rw [if_neg hd]
  simp only [bind, Except.bind, pure, Except.pure, Except.ok.injEq]
  rfl

private theorem mapM_ok_of {α β : Type} {f : α → Res β} {g : α → β} :
    ∀ {l : List α}, (∀ a ∈ l, f a = .ok (g a)) → l.mapM f = .ok (l.map g)
  | [], _ => rfl
  | a :: l, h => by
    rw [List.mapM_cons, h a (by simp), mapM_ok_of (fun b hb => h b (List.mem_cons_of_mem _ hb))]
    rfl

private theorem applyMulti_eq (ws : List (Matrix m Unit K)) (X : Matrix t m K) (h : ws ≠ []) :
    applyMulti ws X = some (ws.map (fun w => apply w X)) := by
  have key : ∀ (ws : List (Matrix m Unit K)) (acc : List (Matrix t Unit K)),
      ws.foldl (fun results w => some ((results.getD []) ++ [apply w X])) (some acc) =
        some (acc ++ ws.map (fun w => apply w X)) := by
    intro ws
    induction ws with
    | nil => intro acc; simp
    | cons w ws ih => intro acc; rw [List.foldl_cons, Option.getD_some, ih]; simp
  cases ws with
  | nil => exact absurd rfl h
  | cons w ws =>
    unfold applyMulti
    rw [List.foldl_cons, Option.getD_none, List.nil_append, key]
    rfl

/-- `MultiOutputRidgeRegression` predicts what `RidgeRegression` predicts, feature by feature. -/
theorem C67_multi_output {q : Nat} {X : Matrix n m K} {Y : Matrix n (Fin q) K} {lamb : K}
    {w : Matrix m (Fin q) K} (h : train X Y lamb = .ok w) (hq : 0 < q) (T : Matrix t m K) :
    ∃ ws, trainMulti X Y lamb = .ok ws ∧
      applyMulti ws T = some ((List.finRange q).map (fun c => column (apply w T) c)) := by
  refine ⟨(List.finRange q).map (fun c => column w c), mapM_ok_of (fun c _ => C67_columns h c), ?_⟩
  rw [applyMulti_eq, List.map_map]
  · rfl
  · intro hc
    have := congrArg List.length hc
    simp at this
    omega

/-! ### Cases -/

def Xex : Matrix (Fin 3) (Fin 2) ℚ := !![1, 0; 1, 1; 1, 2]
def Yex : Matrix (Fin 3) (Fin 1) ℚ := !![1; 2; 4]

example : ∃ w, train Xex Yex 1 = .ok w ∧
    ∀ w', loss Xex (fun i => Yex i 0) 1 (fun j => w j 0) ≤ loss Xex (fun i => Yex i 0) 1 w' := by
  obtain ⟨w, hw⟩ := C67_penalised_succeeds Xex Yex (lamb := 1) (by norm_num)
  exact ⟨w, hw, fun w' => (C67_minimises (by norm_num) hw 0 w').1⟩

/-- Unpenalised with two equal features: singular. -/
example : ¬ ∃ w, train (!![1, 1; 2, 2] : Matrix (Fin 2) (Fin 2) ℚ) (!![1; 2] : Matrix _ (Fin 1) ℚ) 0 = .ok w := by
  rw [C67_unpenalised_succeeds_iff]
  intro h
  have := congrFun (h ![1, -1] (by intro i; fin_cases i <;> simp [Fin.sum_univ_two])) 0
  simp at this

end Nimble.Ridge
