import Verif.Model.Statistic
import Verif.Props.SparseMore
import Verif.Props.Normalize
import Verif.Props.MultiClassVote
import Mathlib.Data.List.Dedup
import Mathlib.Data.List.Perm.Basic
import Mathlib.Tactic.Ring
import Mathlib.Tactic.FieldSimp
import Mathlib.Tactic.Push

/-!
# C62: statistics of a Sparse vector
-/

namespace Nimble
namespace Stat
open Sp MultiClass

/-! ## Specification -/

/-- All elements of the vector, zeros included. -/
def elems (c : Coo (Option ℚ)) : List (Option ℚ) := c.dense.flatten

/-- A coordinate list with one entry per position (zeros may be stored). -/
structure Stored (c : Coo (Option ℚ)) : Prop where
  nodup : (c.ents.map Ent.pos).Nodup
  row_lt : ∀ e ∈ c.ents, e.row < c.rows
  col_lt : ∀ e ∈ c.ents, e.col < c.cols

/-- One point or one feature. -/
def IsVector (c : Coo (Option ℚ)) : Prop := c.rows = 1 ∨ c.cols = 1

/-- `S` are the most frequent values of `l`, in increasing order. -/
structure Modes (l S : List ℚ) : Prop where
  incr : S.Pairwise (· < ·)
  mem : ∀ v, v ∈ S ↔ v ∈ l ∧ ∀ w, l.count w ≤ l.count v

/-! ## The stored elements and the zeros -/

theorem stored_of_core {c : Coo (Option ℚ)} (h : c.Core) : Stored c := ⟨h.nodup, h.row_lt, h.col_lt⟩

theorem vecLen_eq {c : Coo (Option ℚ)} (h : IsVector c) : vecLen c = c.rows * c.cols := by
  unfold vecLen
  rcases h with h | h
  · rw [h]
    split
    · rename_i h0
      have : c.cols = 0 := by omega
      rw [this]
    · simp
  · rw [h]
    split
    · rename_i h0
      have : c.rows = 0 := by omega
      rw [this]
    · split
      · rename_i h1; rw [h1]
      · simp

theorem elems_perm {c : Coo (Option ℚ)} (h : Stored c) :
    nnz c ≤ c.rows * c.cols ∧
    (elems c).Perm (stored c ++ List.replicate (c.rows * c.cols - nnz c) (some 0)) := by
  let P := List.range c.rows ×ˢ List.range c.cols
  have hPn : P.Nodup := List.nodup_range.product List.nodup_range
  let E := c.ents.map Ent.pos
  have hEP : ∀ p ∈ E, p ∈ P := by
    intro p hp
    obtain ⟨e, he, rfl⟩ := List.mem_map.1 hp
    rw [List.mem_product, List.mem_range, List.mem_range]
    exact ⟨h.row_lt e he, h.col_lt e he⟩
  have h1 : (P.filter (fun p => decide (p ∈ E))).Perm E := by
    refine (List.perm_ext_iff_of_nodup (hPn.filter _) h.nodup).2 fun p => ?_
    rw [List.mem_filter, decide_eq_true_eq]
    exact ⟨fun h => h.2, fun h => ⟨hEP p h, h⟩⟩
  have h2 : (P.filter (fun p => decide (p ∈ E)) ++ P.filter (fun p => !decide (p ∈ E))).Perm P :=
    List.filter_append_perm _ _
  have hl : P.length = c.rows * c.cols := by
    show (List.range c.rows ×ˢ List.range c.cols).length = _
    rw [List.length_product, List.length_range, List.length_range]
  have hl2 := h2.length_eq
  rw [List.length_append, h1.length_eq, hl, List.length_map] at hl2
  have hle : nnz c ≤ c.rows * c.cols := by unfold nnz; omega
  refine ⟨hle, ?_⟩
  unfold elems
  rw [Coo.flatten_dense]
  refine (h2.symm.map _).trans ?_
  rw [List.map_append]
  refine List.Perm.append ?_ ?_
  · refine (h1.map _).trans ?_
    rw [List.map_map]
    unfold stored
    rw [List.map_congr_left (g := Ent.val)]
    intro e he
    exact Coo.at_of_mem h.nodup he
  · refine List.Perm.of_eq ?_
    rw [List.eq_replicate_iff]
    constructor
    · rw [List.length_map]; unfold nnz; omega
    · intro b hb
      obtain ⟨p, hp, rfl⟩ := List.mem_map.1 hb
      rw [List.mem_filter] at hp
      refine Coo.at_of_not fun e he hpos => ?_
      have : p ∈ E := List.mem_map.2 ⟨e, he, hpos⟩
      simp [this] at hp

theorem elems_length {c : Coo (Option ℚ)} (h : IsVector c) : (elems c).length = vecLen c := by
  unfold elems
  rw [Coo.flatten_dense, List.length_map, vecLen_eq h]
  rw [List.length_product, List.length_range, List.length_range]

theorem present_append {A : Type} (a b : List (Option A)) : present (a ++ b) = present a ++ present b := by
  simp [present]

theorem present_zeros (n : Nat) : present (List.replicate n (some (0 : ℚ))) = List.replicate n 0 := by
  unfold present
  induction n with
  | zero => rfl
  | succ n ih => rw [List.replicate_succ, List.replicate_succ, List.filterMap_cons, ih]; rfl

theorem present_perm {A : Type} {a b : List (Option A)} (h : a.Perm b) : (present a).Perm (present b) :=
  h.filterMap _

theorem present_elems {c : Coo (Option ℚ)} (h : Stored c) :
    (present (elems c)).Perm (present (stored c) ++ List.replicate (c.rows * c.cols - nnz c) 0) := by
  have := present_perm (elems_perm h).2
  rwa [present_append, present_zeros] at this

theorem missing_length (l : List (Option ℚ)) : (present l).length + l.countP isMissing = l.length := by
  induction l with
  | nil => rfl
  | cons a l ih =>
    cases a with
    | none =>
      have : present (none :: l) = present l := rfl
      rw [this, List.countP_cons, List.length_cons]
      rw [show isMissing none = true from rfl, if_pos rfl]
      omega
    | some a =>
      have : present (some a :: l) = a :: present l := rfl
      rw [this, List.countP_cons, List.length_cons, List.length_cons]
      rw [show isMissing (some a) = false from rfl]
      simp only [Bool.false_eq_true, if_false]
      omega

/-- The number of values which are not missing, from what is stored. -/
theorem present_length {c : Coo (Option ℚ)} (h : Stored c) (hv : IsVector c) :
    ((present (elems c)).length : Int) = (vecLen c : Int) - (numNan c : Int) := by
  have h1 := (present_elems h).length_eq
  have h2 := missing_length (stored c)
  have h3 := (elems_perm h).1
  rw [List.length_append, List.length_replicate] at h1
  rw [vecLen_eq hv]
  unfold numNan
  have h4 : (stored c).length = nnz c := by simp [stored, nnz]
  omega

/-! ## Proportions -/

theorem iterOnly_length (p : Option ℚ → Bool) (vs : List (Option ℚ)) :
    (iterOnly p vs).length = vs.countP p := by
  unfold iterOnly; rw [List.countP_eq_length_filter]

/-- C62. The proportion of missing elements. -/
theorem C62_proportion_missing {c : Coo (Option ℚ)} (h : Stored c) (hv : IsVector c) :
    proportionMissingS c = proportionMissingD (elems c) ∧
    proportionMissingD (elems c) = (elems c).count none / (elems c).length := by
  constructor
  · unfold proportionMissingS proportionMissingD
    rw [elems_length hv]
    congr 2
    rw [iterOnly_length, (elems_perm h).2.countP_eq, List.countP_append]
    have : List.countP isMissing (List.replicate (c.rows * c.cols - nnz c) (some (0 : ℚ))) = 0 := by
      rw [List.countP_replicate]; simp [isMissing]
    rw [this, Nat.add_zero]
    unfold iterStored
    rw [List.countP_eq_length_filter]
  · unfold proportionMissingD
    rw [iterOnly_length, List.count]
    congr 3
    funext a
    cases a <;> simp [isMissing]

/-- C62. The proportion of zeros, when no zero is stored. -/
theorem C62_proportion_zero_partial {c : Coo (Option ℚ)} (h : c.Core) (hv : IsVector c) :
    proportionZeroS c = proportionZeroD (elems c) ∧
    proportionZeroD (elems c) = (elems c).count (some 0) / (elems c).length := by
  constructor
  · unfold proportionZeroS proportionZeroD
    rw [elems_length hv]
    congr 1
    obtain ⟨hle, hp⟩ := elems_perm (stored_of_core h)
    rw [iterOnly_length, hp.countP_eq, List.countP_append]
    have h0 : (stored c).countP isZero = 0 := by
      rw [List.countP_eq_zero]
      intro a ha
      obtain ⟨e, he, rfl⟩ := List.mem_map.1 ha
      have := h.nonzero e he
      simp only [isZero, decide_eq_true_eq]
      exact this
    have h1 : List.countP isZero (List.replicate (c.rows * c.cols - nnz c) (some (0 : ℚ)))
        = c.rows * c.cols - nnz c := by
      rw [List.countP_replicate]; simp [isZero]
    rw [h0, h1, vecLen_eq hv, Nat.zero_add, Nat.cast_sub hle]
    push_cast
    rfl
  · unfold proportionZeroD
    rw [iterOnly_length, List.count]
    congr 3
    funext a
    simp only [isZero]
    rw [Bool.eq_iff_iff]; simp

/-! ## Minimum and maximum -/

theorem isMin_unique {l : List ℚ} {a b : ℚ} (h1 : IsMin l a) (h2 : IsMin l b) : a = b :=
  le_antisymm (h1.2 _ h2.1) (h2.2 _ h1.1)

theorem isMax_unique {l : List ℚ} {a b : ℚ} (h1 : IsMax l a) (h2 : IsMax l b) : a = b :=
  le_antisymm (h2.2 _ h1.1) (h1.2 _ h2.1)

theorem nanMin_congr {a b : List (Option ℚ)} (h : ∀ x, x ∈ present a ↔ x ∈ present b) : nanMin a = nanMin b := by
  by_cases ha : present a = []
  · have hb : present b = [] := by
      rw [List.eq_nil_iff_forall_not_mem]; intro x hx; rw [← h, ha] at hx; cases hx
    unfold nanMin; rw [ha, hb]
  · have hb : present b ≠ [] := by
      intro hb
      apply ha
      rw [List.eq_nil_iff_forall_not_mem]; intro x hx; rw [h, hb] at hx; cases hx
    obtain ⟨m, h1, h2⟩ := nanMin_spec ha
    obtain ⟨m', h1', h2'⟩ := nanMin_spec hb
    rw [h1, h1']
    congr 1
    refine isMin_unique h2 ⟨(h _).2 h2'.1, fun v hv => h2'.2 v ((h _).1 hv)⟩

theorem nanMax_congr {a b : List (Option ℚ)} (h : ∀ x, x ∈ present a ↔ x ∈ present b) : nanMax a = nanMax b := by
  by_cases ha : present a = []
  · have hb : present b = [] := by
      rw [List.eq_nil_iff_forall_not_mem]; intro x hx; rw [← h, ha] at hx; cases hx
    unfold nanMax; rw [ha, hb]
  · have hb : present b ≠ [] := by
      intro hb
      apply ha
      rw [List.eq_nil_iff_forall_not_mem]; intro x hx; rw [h, hb] at hx; cases hx
    obtain ⟨m, h1, h2⟩ := nanMax_spec ha
    obtain ⟨m', h1', h2'⟩ := nanMax_spec hb
    rw [h1, h1']
    congr 1
    refine isMax_unique h2 ⟨(h _).2 h2'.1, fun v hv => h2'.2 v ((h _).1 hv)⟩

theorem minmax_mem {c : Coo (Option ℚ)} (h : Stored c) (hv : IsVector c) (x : ℚ) :
    x ∈ present (minmaxStored c) ↔ x ∈ present (elems c) := by
  obtain ⟨hle, hp⟩ := elems_perm h
  rw [mem_present, mem_present, hp.mem_iff, List.mem_append, List.mem_replicate]
  unfold minmaxStored
  rw [vecLen_eq hv]
  split
  · rename_i hgt
    rw [List.mem_append, List.mem_singleton]
    constructor
    · rintro (h | h)
      · exact Or.inl h
      · exact Or.inr ⟨by omega, h⟩
    · rintro (h | h)
      · exact Or.inl h
      · exact Or.inr h.2
  · rename_i hgt
    constructor
    · exact Or.inl
    · rintro (h | h)
      · exact h
      · omega

/-- C62. Minimum and maximum: those of all elements, whether zeros are stored or not; they are elements
not larger (smaller) than any other, and missing only when there is no value. -/
theorem C62_minmax {c : Coo (Option ℚ)} (h : Stored c) (hv : IsVector c) :
    minimumS c = nanMin (elems c) ∧ maximumS c = nanMax (elems c) ∧
    (present (elems c) = [] → minimumS c = none ∧ maximumS c = none) ∧
    (present (elems c) ≠ [] → ∃ a b, minimumS c = some a ∧ maximumS c = some b ∧
      IsMin (present (elems c)) a ∧ IsMax (present (elems c)) b) := by
  have h1 : minimumS c = nanMin (elems c) := nanMin_congr (minmax_mem h hv)
  have h2 : maximumS c = nanMax (elems c) := nanMax_congr (minmax_mem h hv)
  refine ⟨h1, h2, fun he => ?_, fun hne => ?_⟩
  · rw [h1, h2]; unfold nanMin nanMax; rw [he]; exact ⟨rfl, rfl⟩
  · obtain ⟨a, ha, ha'⟩ := nanMin_spec hne
    obtain ⟨b, hb, hb'⟩ := nanMax_spec hne
    exact ⟨a, b, h1.trans ha, h2.trans hb, ha', hb'⟩

/-! ## Mean and variance -/

theorem present_sum {c : Coo (Option ℚ)} (h : Stored c) :
    (present (elems c)).sum = (present (stored c)).sum := by
  rw [(present_elems h).sum_eq, List.sum_append]
  simp

/-- C62. The mean. -/
theorem C62_mean {c : Coo (Option ℚ)} (h : Stored c) (hv : IsVector c) :
    meanS c = nanMean (elems c) := by
  unfold meanS npDiv nanMean
  rw [← present_length h hv, present_sum h]
  by_cases hp : present (elems c) = []
  · rw [if_pos hp, if_pos (by rw [hp]; rfl)]
  · have : (present (elems c)).length ≠ 0 := fun e => hp (List.length_eq_zero_iff.1 e)
    rw [if_neg hp, if_neg (by exact_mod_cast this)]
    push_cast
    rfl

/-- C62. The variance, of a sample or of a population. -/
theorem C62_variance {c : Coo (Option ℚ)} (h : Stored c) (hv : IsVector c) (sample : Bool) :
    varianceS sample c = varianceD sample (elems c) := by
  unfold varianceS varianceD nanVar
  rw [C62_mean h hv]
  unfold nanMean
  by_cases hp : present (elems c) = []
  · rw [if_pos hp]
    dsimp only
    rw [hp, List.length_nil, if_pos (Nat.zero_le _)]
  · rw [if_neg hp]
    have hl : (present (elems c)).length ≠ 0 := fun e => hp (List.length_eq_zero_iff.1 e)
    dsimp only
    rw [← present_length h hv]
    generalize hm : (present (elems c)).sum / ((present (elems c)).length : ℚ) = m
    have hs : ((present (elems c)).map (fun x => (x - m) ^ 2)).sum
        = ((present (stored c)).map (fun x => (x - m) ^ 2)).sum
          + m ^ 2 * (((vecLen c : Int) - (nnz c : Int) : Int) : ℚ) := by
      rw [((present_elems h).map _).sum_eq, List.map_append, List.sum_append, List.map_replicate,
        List.sum_replicate, vecLen_eq hv]
      have := (elems_perm h).1
      rw [nsmul_eq_mul, Nat.cast_sub this]
      push_cast
      ring
    rw [← hs]
    unfold npDiv
    cases sample with
    | false =>
      simp only [Bool.false_eq_true, if_false, sub_zero, Nat.le_zero, hl]
      rw [if_neg (by exact_mod_cast hl)]
      simp
    | true =>
      simp only [if_true]
      by_cases h1 : (present (elems c)).length ≤ 1
      · rw [if_pos h1, if_pos (by omega)]
      · rw [if_neg h1, if_neg (by omega)]
        simp

end Stat
end Nimble
