import Verif.Props.Statistic

/-!
# C62: mode and number of distinct values; zeros which are stored
-/

namespace Nimble
namespace Stat
open Sp MultiClass

/-! ## The mode from the counts -/

/-- What a counter of the values `l` contains. -/
structure Counts (l : List ℚ) (counter : List (ℚ × Nat)) : Prop where
  nodup : (counter.map Prod.fst).Nodup
  mem : ∀ x n, (x, n) ∈ counter ↔ x ∈ l ∧ n = l.count x

theorem takeWhile_eq_filter (m : Nat) : ∀ l : List (ℚ × Nat), l.Pairwise (fun a b => b.2 ≤ a.2) →
    (∀ p ∈ l, p.2 ≤ m) →
    l.takeWhile (fun p => decide (p.2 = m)) = l.filter (fun p => decide (p.2 = m))
  | [], _, _ => rfl
  | a :: l, h, hm => by
    obtain ⟨h1, h2⟩ := List.pairwise_cons.1 h
    by_cases e : a.2 = m
    · rw [List.takeWhile_cons_of_pos (by simpa using e), List.filter_cons_of_pos (by simpa using e),
        takeWhile_eq_filter m l h2 (fun p hp => hm p (List.mem_cons_of_mem _ hp))]
    · rw [List.takeWhile_cons_of_neg (by simpa using e), List.filter_cons_of_neg (by simpa using e)]
      symm
      rw [List.filter_eq_nil_iff]
      intro p hp
      have := h1 p hp
      have := hm a (by simp)
      simp only [decide_eq_true_eq]
      omega

theorem modesOf_spec {l : List ℚ} {counter : List (ℚ × Nat)} (h : Counts l counter) (hl : l ≠ []) :
    (modesOf (counter.mergeSort (fun a b => decide (b.2 ≤ a.2)))).Nodup ∧
    ∀ v, v ∈ modesOf (counter.mergeSort (fun a b => decide (b.2 ≤ a.2))) ↔
      v ∈ l ∧ ∀ w, l.count w ≤ l.count v := by
  have hp : (counter.mergeSort (fun a b => decide (b.2 ≤ a.2))).Perm counter := List.mergeSort_perm _ _
  have hs := List.pairwise_mergeSort (le := fun (a b : ℚ × Nat) => decide (b.2 ≤ a.2))
    (by intro a b c; simp only [decide_eq_true_eq]; omega)
    (by intro a b; simp only [Bool.or_eq_true, decide_eq_true_eq]; omega) counter
  generalize counter.mergeSort (fun a b => decide (b.2 ≤ a.2)) = s at hp hs
  cases s with
  | nil =>
    exfalso
    cases l with
    | nil => exact hl rfl
    | cons a l =>
      have := (h.mem a _).2 ⟨by simp, rfl⟩
      rw [← hp.mem_iff] at this
      cases this
  | cons f rest =>
    have hs' : (f :: rest).Pairwise (fun a b => b.2 ≤ a.2) := hs.imp (by intro a b; simp)
    obtain ⟨h1, h2⟩ := List.pairwise_cons.1 hs'
    have hm : modesOf (f :: rest) = ((f :: rest).filter (fun p => decide (p.2 = f.2))).map Prod.fst := by
      unfold modesOf
      rw [List.filter_cons_of_pos (by simp), List.map_cons]
      dsimp only
      rw [takeWhile_eq_filter f.2 rest h2 h1]
    have hall : ∀ p ∈ f :: rest, p.2 ≤ f.2 := by
      intro p hq
      rcases List.mem_cons.1 hq with rfl | hq
      · exact le_refl _
      · exact h1 p hq
    have hf := (h.mem f.1 f.2).1 (hp.mem_iff.1 (by simp))
    rw [hm]
    constructor
    · have : ((f :: rest).map Prod.fst).Nodup := (hp.map _).nodup_iff.2 h.nodup
      exact this.sublist (List.Sublist.map _ List.filter_sublist)
    · intro v
      rw [List.mem_map]
      constructor
      · rintro ⟨p, hq, rfl⟩
        rw [List.mem_filter, decide_eq_true_eq] at hq
        have hv := (h.mem p.1 p.2).1 (hp.mem_iff.1 hq.1)
        refine ⟨hv.1, fun w => ?_⟩
        rw [← hv.2, hq.2]
        by_cases hw : w ∈ l
        · exact hall _ (hp.mem_iff.2 ((h.mem w _).2 ⟨hw, rfl⟩))
        · rw [List.count_eq_zero.2 hw]; exact Nat.zero_le _
      · rintro ⟨hv, hmax⟩
        have hin := hp.mem_iff.2 ((h.mem v _).2 ⟨hv, rfl⟩)
        refine ⟨(v, l.count v), ?_, rfl⟩
        rw [List.mem_filter, decide_eq_true_eq]
        refine ⟨hin, ?_⟩
        have := hall _ hin
        have := hmax f.1
        rw [← hf.2] at this
        dsimp only at *
        omega

theorem modeOf_spec {l : List ℚ} {counter : List (ℚ × Nat)} (h : Counts l counter) (hl : l ≠ []) :
    ∃ S, Modes l S ∧ S ≠ [] ∧ modeOf counter = S[(S.length - 1) / 2]? := by
  obtain ⟨hn, hm⟩ := modesOf_spec h hl
  unfold modeOf
  dsimp only
  generalize modesOf (counter.mergeSort (fun a b => decide (b.2 ≤ a.2))) = ms at hn hm
  have hp : (ms.mergeSort (fun a b => decide (a ≤ b))).Perm ms := List.mergeSort_perm _ _
  have hs := List.pairwise_mergeSort (le := fun (a b : ℚ) => decide (a ≤ b))
    (by intro a b c; simp only [decide_eq_true_eq]; exact le_trans)
    (by intro a b; simp only [Bool.or_eq_true, decide_eq_true_eq]; exact le_total a b) ms
  have hlen : ms.length = (ms.mergeSort (fun a b => decide (a ≤ b))).length := hp.length_eq.symm
  have hne : ms ≠ [] := by
    obtain ⟨x, hx⟩ : ∃ x, x ∈ l ∧ ∀ w, l.count w ≤ l.count x := by
      obtain ⟨w, -, h1, h2⟩ := C44_one_vs_one hl
      exact ⟨w, h1, h2⟩
    exact List.ne_nil_of_mem ((hm x).2 hx)
  refine ⟨ms.mergeSort (fun a b => decide (a ≤ b)), ⟨?_, ?_⟩, ?_, ?_⟩
  · have hnd : (ms.mergeSort (fun a b => decide (a ≤ b))).Nodup := hp.nodup_iff.2 hn
    refine (hs.and hnd).imp ?_
    rintro a b ⟨h1, h2⟩
    exact lt_of_le_of_ne (by simpa using h1) h2
  · intro v; rw [hp.mem_iff]; exact hm v
  · intro e
    rw [e] at hlen
    exact hne (List.length_eq_zero_iff.1 hlen)
  · rw [← hlen]
    congr 1
    split <;> omega

theorem Modes.unique {l l' S S' : List ℚ} (h : Modes l S) (h' : Modes l' S') (hp : l.Perm l') : S = S' := by
  refine h.incr.eq_of_mem_iff h'.incr fun v => ?_
  rw [h.mem, h'.mem, hp.mem_iff]
  simp only [hp.count_eq]

theorem counts_countWins (l : List ℚ) : Counts l (countWins l) :=
  ⟨(countWins_spec l).1, (countWins_spec l).2⟩

theorem present_nonMissing (vs : List (Option ℚ)) : present (iterOnly nonMissing vs) = present vs := by
  induction vs with
  | nil => rfl
  | cons a vs ih => cases a with
    | none => exact ih
    | some a => exact congrArg (a :: ·) ih

theorem modeOf_nil : modeOf [] = none := by
  unfold modeOf
  rw [List.mergeSort_nil]
  dsimp only
  rw [show modesOf [] = [] from rfl, List.mergeSort_nil]
  rfl

theorem modeOf_one (x : ℚ) (n : Nat) : modeOf [(x, n)] = some x := by
  unfold modeOf
  rw [List.mergeSort_singleton]
  dsimp only
  rw [show modesOf [(x, n)] = [x] from rfl, List.mergeSort_singleton]
  simp

/-- C62. The mode, for all types but Sparse: with the most frequent values in increasing order, the one in
the middle, or left of the middle; an exception without values. -/
theorem C62_mode_value (vs : List (Option ℚ)) :
    (present vs = [] → modeD vs = none) ∧
    (present vs ≠ [] → ∃ S, Modes (present vs) S ∧ S ≠ [] ∧ modeD vs = S[(S.length - 1) / 2]? ∧
      ∃ m, modeD vs = some m ∧ m ∈ present vs ∧ ∀ w, (present vs).count w ≤ (present vs).count m) := by
  unfold modeD
  rw [present_nonMissing]
  constructor
  · intro h
    rw [h]
    exact modeOf_nil
  · intro h
    obtain ⟨S, h1, h2, h3⟩ := modeOf_spec (counts_countWins (present vs)) h
    refine ⟨S, h1, h2, h3, ?_⟩
    have hS : S.length ≠ 0 := fun e => h2 (List.length_eq_zero_iff.1 e)
    have hlt : (S.length - 1) / 2 < S.length := by omega
    refine ⟨S[(S.length - 1) / 2], by rw [h3, List.getElem?_eq_getElem hlt], ?_⟩
    exact (h1.mem _).1 (List.getElem_mem hlt)

theorem counts_add {l : List ℚ} {counter : List (ℚ × Nat)} (h : Counts l counter) {n : Nat} (hn : n ≠ 0)
    (k : ℚ) : Counts (l ++ List.replicate n k) (counterAdd k n counter) := by
  unfold counterAdd
  refine ⟨dictSet_nodup h.nodup, fun x m => ?_⟩
  rw [dictGet_mem (dictSet_nodup h.nodup), List.mem_append, List.mem_replicate, List.count_append,
    List.count_replicate]
  by_cases e : x = k
  · subst e
    rw [dictGet_set_self]
    have hg : (dictGet x counter).getD 0 = l.count x := by
      cases hd : dictGet x counter with
      | none =>
        rw [Option.getD_none]
        symm
        rw [List.count_eq_zero]
        intro hx
        have := (dictGet_mem h.nodup).1 ((h.mem x _).2 ⟨hx, rfl⟩)
        rw [hd] at this; cases this
      | some v => exact ((h.mem x v).1 ((dictGet_mem h.nodup).2 hd)).2
    rw [hg]
    simp only [hn, ne_eq, not_false_eq_true, and_self, or_true, true_and, beq_self_eq_true, if_true,
      Option.some.injEq]
    exact eq_comm
  · rw [dictGet_set_ne e, ← dictGet_mem h.nodup, h.mem]
    have : (k == x) = false := by simpa using fun e' => e e'.symm
    simp [e, this]

theorem present_nonzero {c : Coo (Option ℚ)} (h : c.Core) :
    present (iterStored nonMissingNonZero c) = present (stored c) := by
  have hz : ∀ v ∈ stored c, v ≠ some 0 := by
    intro v hv
    obtain ⟨e, he, rfl⟩ := List.mem_map.1 hv
    exact h.nonzero e he
  unfold iterStored
  generalize stored c = vs at hz
  induction vs with
  | nil => rfl
  | cons a vs ih =>
    have ih := ih (fun v hv => hz v (List.mem_cons_of_mem _ hv))
    have ha := hz a (by simp)
    cases a with
    | none => exact ih
    | some a =>
      have : nonMissingNonZero (some a) = true := by
        simp only [nonMissingNonZero, isMissing, isZero, Option.isNone_some, Bool.not_false, Bool.true_and,
          Bool.not_eq_true', decide_eq_false_iff_not]
        exact ha
      rw [List.filter_cons_of_pos this]
      exact congrArg (a :: ·) ih

/-- C62. The mode, when no zero is stored (missing: stored zeros, where it is violated). -/
theorem C62_mode_partial {c : Coo (Option ℚ)} (h : c.Core) (hv : IsVector c) : modeS c = modeD (elems c) := by
  have hpe := present_elems (stored_of_core h)
  have hcount : Counts (present (stored c) ++ List.replicate (c.rows * c.cols - nnz c) 0)
      (if vecLen c - nnz c = 0 then countWins (present (iterStored nonMissingNonZero c))
        else counterAdd 0 (vecLen c - nnz c) (countWins (present (iterStored nonMissingNonZero c)))) := by
    rw [present_nonzero h, vecLen_eq hv]
    split
    · rename_i h0
      rw [h0, List.replicate_zero, List.append_nil]
      exact counts_countWins _
    · rename_i h0
      exact counts_add (counts_countWins _) h0 0
  by_cases hp : present (elems c) = []
  · rw [(C62_mode_value _).1 hp]
    rw [hp] at hpe
    have := hpe.symm.eq_nil
    rw [this] at hcount
    unfold modeS
    dsimp only
    generalize (if vecLen c - nnz c = 0 then countWins (present (iterStored nonMissingNonZero c))
        else counterAdd 0 (vecLen c - nnz c) (countWins (present (iterStored nonMissingNonZero c)))) = k
      at hcount
    have : k = [] := by
      rw [List.eq_nil_iff_forall_not_mem]
      rintro ⟨x, n⟩ hx
      have := ((hcount.mem x n).1 hx).1
      cases this
    rw [this]
    exact modeOf_nil
  · obtain ⟨S, h1, -, h3, -⟩ := (C62_mode_value _).2 hp
    have hne : present (stored c) ++ List.replicate (c.rows * c.cols - nnz c) 0 ≠ [] := by
      intro e
      rw [e] at hpe
      exact hp hpe.eq_nil
    obtain ⟨S', h1', -, h3'⟩ := modeOf_spec hcount hne
    rw [h3]
    unfold modeS
    dsimp only
    rw [h3', Modes.unique h1 h1' hpe]

/-! ## Distinct values -/

/-- C62. The number of distinct values: the same for Sparse, when no zero is stored. -/
theorem C62_unique_count_partial {c : Coo (Option ℚ)} (h : c.Core) (hv : IsVector c) :
    uniqueCountS c = uniqueCountD (elems c) ∧
    uniqueCountD (elems c) = (present (elems c)).toFinset.card := by
  constructor
  · unfold uniqueCountS uniqueCountD
    dsimp only
    rw [present_nonMissing, present_nonzero h]
    refine List.Perm.length_eq ?_
    have hpe := present_elems (stored_of_core h)
    have hnd : (if vecLen c > nnz c then (present (stored c)).dedup.insert 0
        else (present (stored c)).dedup).Nodup := by
      split
      · exact (List.nodup_dedup _).insert
      · exact List.nodup_dedup _
    refine (List.perm_ext_iff_of_nodup hnd (List.nodup_dedup _)).2 fun x => ?_
    rw [List.mem_dedup, hpe.mem_iff, List.mem_append, List.mem_replicate, vecLen_eq hv]
    split
    · rename_i hgt
      rw [List.mem_insert_iff, List.mem_dedup]
      constructor
      · rintro (h | h)
        · exact Or.inr ⟨by omega, h⟩
        · exact Or.inl h
      · rintro (h | h)
        · exact Or.inr h
        · exact Or.inl h.2
    · rename_i hgt
      rw [List.mem_dedup]
      constructor
      · exact Or.inl
      · rintro (h | h)
        · exact h
        · omega
  · unfold uniqueCountD
    rw [present_nonMissing]
    rfl

/-! ## The order of the elements -/

/-- C62. No statistic depends on the order of the elements. -/
theorem C62_order {a b : List (Option ℚ)} (h : a.Perm b) (sample : Bool) :
    proportionMissingD a = proportionMissingD b ∧ proportionZeroD a = proportionZeroD b ∧
    nanMin a = nanMin b ∧ nanMax a = nanMax b ∧ nanMean a = nanMean b ∧
    varianceD sample a = varianceD sample b ∧ modeD a = modeD b ∧ uniqueCountD a = uniqueCountD b := by
  have hp := present_perm h
  refine ⟨?_, ?_, ?_, ?_, ?_, ?_, ?_, ?_⟩
  · unfold proportionMissingD; rw [iterOnly_length, iterOnly_length, h.countP_eq, h.length_eq]
  · unfold proportionZeroD; rw [iterOnly_length, iterOnly_length, h.countP_eq, h.length_eq]
  · exact nanMin_congr fun x => hp.mem_iff
  · exact nanMax_congr fun x => hp.mem_iff
  · unfold nanMean
    rw [hp.sum_eq, hp.length_eq]
    by_cases hb : present b = []
    · rw [if_pos hb, if_pos (by rw [hb] at hp; exact hp.eq_nil)]
    · rw [if_neg hb, if_neg (by intro e; rw [e] at hp; exact hb hp.symm.eq_nil)]
  · unfold varianceD nanVar
    dsimp only
    rw [hp.sum_eq, hp.length_eq, (hp.map _).sum_eq]
  · by_cases ha : present a = []
    · have hb : present b = [] := by rw [ha] at hp; exact hp.symm.eq_nil
      rw [(C62_mode_value _).1 ha, (C62_mode_value _).1 hb]
    · have hb : present b ≠ [] := by intro e; rw [e] at hp; exact ha hp.eq_nil
      obtain ⟨S, h1, -, h3, -⟩ := (C62_mode_value _).2 ha
      obtain ⟨S', h1', -, h3', -⟩ := (C62_mode_value _).2 hb
      rw [h3, h3', Modes.unique h1 h1' hp]
  · unfold uniqueCountD
    rw [present_nonMissing, present_nonMissing]
    exact (hp.dedup).length_eq

/-! ## Examples -/

/-- The feature 3, nan, 0, 0, 3, 5: four entries. -/
def exVec : Coo (Option ℚ) where
  rows := 6
  cols := 1
  ents := [⟨0, 0, some 3⟩, ⟨1, 0, none⟩, ⟨4, 0, some 3⟩, ⟨5, 0, some 5⟩]

theorem exVec_core : exVec.Core := by
  refine ⟨by decide, by decide, by decide, ?_⟩
  intro e he
  simp only [exVec, List.mem_cons, List.not_mem_nil, or_false] at he
  have h3 : (some 3 : Option ℚ) ≠ some 0 := by decide +kernel
  have h5 : (some 5 : Option ℚ) ≠ some 0 := by decide +kernel
  rcases he with rfl | rfl | rfl | rfl
  · exact h3
  · exact fun h => nomatch h
  · exact h3
  · exact h5

theorem exVec_elems : elems exVec = [some 3, none, some 0, some 0, some 3, some 5] := by decide +kernel

example : IsVector exVec := Or.inr rfl
example : proportionZeroS exVec = 1 / 3 ∧ proportionMissingS exVec = 1 / 6 := by decide +kernel
example : meanS exVec = some (11 / 5) ∧ minimumS exVec = some 0 ∧ maximumS exVec = some 5 := by
  decide +kernel
example : varianceS true exVec = some (47 / 10) ∧ varianceS false exVec = some (94 / 25) := by
  decide +kernel
example : uniqueCountS exVec = 3 := by decide +kernel
/-- 0 and 3 are the most frequent values: the left of the two is the mode. -/
example : Modes (present (elems exVec)) [0, 3] := by
  rw [exVec_elems]
  constructor
  · decide +kernel
  · intro v
    have hp : present [some 3, none, some 0, some 0, some 3, some (5 : ℚ)] = [3, 0, 0, 3, 5] := rfl
    rw [hp]
    have c3 : List.count (3 : ℚ) [3, 0, 0, 3, 5] = 2 := by decide +kernel
    have c0 : List.count (0 : ℚ) [3, 0, 0, 3, 5] = 2 := by decide +kernel
    have c5 : List.count (5 : ℚ) [3, 0, 0, 3, 5] = 1 := by decide +kernel
    have hall : ∀ w, List.count w [3, 0, 0, 3, (5 : ℚ)] ≤ 2 := by
      intro w
      by_cases hw : w ∈ [3, 0, 0, 3, (5 : ℚ)]
      · simp only [List.mem_cons, List.not_mem_nil, or_false] at hw
        rcases hw with rfl | rfl | rfl | rfl | rfl
        · rw [c3]
        · rw [c0]
        · rw [c0]
        · rw [c3]
        · rw [c5]; decide
      · rw [List.count_eq_zero.2 hw]; decide
    constructor
    · intro h
      simp only [List.mem_cons, List.not_mem_nil, or_false] at h
      rcases h with rfl | rfl
      · exact ⟨by decide +kernel, fun w => by rw [c0]; exact hall w⟩
      · exact ⟨by decide +kernel, fun w => by rw [c3]; exact hall w⟩
    · rintro ⟨h, hmax⟩
      simp only [List.mem_cons, List.not_mem_nil, or_false] at h ⊢
      rcases h with rfl | rfl | rfl | rfl | rfl
      · exact Or.inr rfl
      · exact Or.inl rfl
      · exact Or.inl rfl
      · exact Or.inr rfl
      · have := hmax 0
        rw [c0, c5] at this
        omega

/-- C62 is violated: a zero which is stored (a scipy matrix given by the user may contain one) is not counted
as a zero: [0, 1] has no zeros, one distinct value, and the mode is 1. -/
theorem C62_stored_zero_violated :
    ∃ c : Coo (Option ℚ), Stored c ∧ IsVector c ∧ elems c = [some 0, some 1] ∧
      proportionZeroS c = 0 ∧ proportionZeroD (elems c) = 1 / 2 ∧
      uniqueCountS c = 1 ∧ uniqueCountD (elems c) = 2 ∧
      modeS c = some 1 ∧ modeD (elems c) = some 0 := by
  refine ⟨⟨2, 1, [⟨0, 0, some 0⟩, ⟨1, 0, some 1⟩], none, none⟩, ⟨by decide, by decide, by decide⟩,
    Or.inr rfl, by decide +kernel, by decide +kernel, by decide +kernel, by decide +kernel,
    by decide +kernel, ?_, ?_⟩
  · have : present (iterStored nonMissingNonZero
        (⟨2, 1, [⟨0, 0, some 0⟩, ⟨1, 0, some 1⟩], none, none⟩ : Coo (Option ℚ))) = [1] := by decide +kernel
    unfold modeS
    dsimp only
    rw [this]
    have h2 : countWins [(1 : ℚ)] = [(1, 1)] := by decide +kernel
    rw [h2, if_pos (by decide)]
    exact modeOf_one 1 1
  · have : elems (⟨2, 1, [⟨0, 0, some 0⟩, ⟨1, 0, some 1⟩], none, none⟩ : Coo (Option ℚ))
        = [some 0, some 1] := by decide +kernel
    rw [this]
    unfold modeD
    have h2 : countWins (present (iterOnly nonMissing [some 0, some (1 : ℚ)])) = [(0, 1), (1, 1)] := by
      decide +kernel
    rw [h2]
    unfold modeOf
    have h3 : List.mergeSort [((0 : ℚ), 1), (1, 1)] (fun a b => decide (b.2 ≤ a.2)) = [(0, 1), (1, 1)] := by
      simp [List.mergeSort, List.MergeSort.Internal.splitInTwo]
    rw [h3]
    have h4 : modesOf [((0 : ℚ), 1), (1, 1)] = [0, 1] := by decide +kernel
    rw [h4]
    have h5 : List.mergeSort [(0 : ℚ), 1] (fun a b => decide (a ≤ b)) = [0, 1] := by
      simp [List.mergeSort, List.MergeSort.Internal.splitInTwo]
    dsimp only
    rw [h5]
    rfl

end Stat
end Nimble
