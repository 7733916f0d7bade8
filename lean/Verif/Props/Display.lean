import Verif.Model.Display
import Mathlib.Tactic.Linarith

/-!
# C41: the points `toString` shows; C55: the features `toString` shows
-/

namespace Nimble

/-! ## Specification -/

/-- The first `⌈k/2⌉` of the indices `s, ..., s + t - 1`. -/
def firstOf (s : Int) (k : Nat) : List Int := (List.range ((k + 1) / 2)).map (fun (i : Nat) => s + (i : Int))

/-- The last `⌊k/2⌋` of the indices `s, ..., s + t - 1`. -/
def lastOf (s : Int) (t k : Nat) : List Int :=
  (List.range (k / 2)).map (fun (i : Nat) => s + (t : Int) - ((k / 2 : Nat) : Int) + (i : Int))

/-- Strictly increasing and within `s, ..., s + t - 1`. -/
def Within (s : Int) (t : Nat) (l : List Int) : Prop :=
  l.Pairwise (· < ·) ∧ ∀ x ∈ l, s ≤ x ∧ x < s + (t : Int)

/-! ## Points -/

theorem first_last_within (s : Int) {t k : Nat} (hk : k ≤ t) :
    Within s t (firstOf s k ++ lastOf s t k) ∧ (firstOf s k ++ lastOf s t k).length = k := by
  have h2 : (k + 1) / 2 + k / 2 = k := by omega
  refine ⟨⟨?_, ?_⟩, by simp only [firstOf, lastOf, List.length_append, List.length_map,
    List.length_range]; exact h2⟩
  · rw [List.pairwise_append]
    refine ⟨?_, ?_, ?_⟩
    · rw [firstOf, List.pairwise_map]
      exact List.pairwise_lt_range.imp (fun h => by omega)
    · rw [lastOf, List.pairwise_map]
      exact List.pairwise_lt_range.imp (fun h => by omega)
    · intro a ha b hb
      simp only [firstOf, lastOf, List.mem_map, List.mem_range] at ha hb
      obtain ⟨i, hi, rfl⟩ := ha
      obtain ⟨j, hj, rfl⟩ := hb
      omega
  · intro x hx
    simp only [firstOf, lastOf, List.mem_append, List.mem_map, List.mem_range] at hx
    rcases hx with ⟨i, hi, rfl⟩ | ⟨i, hi, rfl⟩ <;> omega

theorem first_last_all (s : Int) (t : Nat) :
    firstOf s t ++ lastOf s t t = (List.range t).map (fun (i : Nat) => s + (i : Int)) := by
  have h2 : t = (t + 1) / 2 + t / 2 := by omega
  conv => rhs; rw [h2, List.range_add, List.map_append, List.map_map]
  congr 1
  apply List.map_congr_left
  intro i _
  simp only [Function.comp]
  omega

theorem indicesSplit_spec (s : Int) {m k t : Nat} (hm : m ≤ t) (hk : k = if m < t then m - 1 else m)
    (h1 : 1 ≤ k) (hs : s = 0 ∨ 2 ≤ k) :
    indicesSplit m s t = .ok (firstOf s k, lastOf s t k) := by
  have hk' : (if (m : Int) < (t : Int) then (m : Int) - 1 else (m : Int)) = (k : Int) := by
    split <;> split at hk <;> omega
  have hkt : k ≤ t := by split at hk <;> omega
  unfold indicesSplit
  simp only [hk']
  by_cases hk1 : (k : Int) = 1 ∨ t = 1
  · rw [if_pos hk1]
    have : k = 1 := by omega
    subst this
    rcases hs with rfl | hs
    · rfl
    · omega
  · rw [if_neg hk1]
    have hf : (((k : Int) + 1) / 2).toNat = (k + 1) / 2 := by omega
    have hb : ((k : Int) / 2).toNat = k / 2 := by omega
    simp only [hf, hb]
    have p1 : 0 < (k + 1) / 2 := by omega
    have p2 : 0 < k / 2 := by omega
    obtain ⟨a, ha⟩ := Nat.exists_eq_succ_of_ne_zero (Nat.pos_iff_ne_zero.1 p1)
    obtain ⟨b, hb'⟩ := Nat.exists_eq_succ_of_ne_zero (Nat.pos_iff_ne_zero.1 p2)
    have l1 : ((List.range ((k + 1) / 2)).map (fun (k : Nat) => (k : Int))).getLast? = some (a : Int) := by
      rw [ha, List.range_succ]; simp
    have l2 : ((List.range (k / 2)).map
        (fun (i : Nat) => (i : Int) - ((k / 2 : Nat) : Int) + (t : Int))).head? =
        some (0 - ((k / 2 : Nat) : Int) + (t : Int)) := by
      rw [hb', List.range_succ_eq_map]; simp
    rw [l1, l2]
    simp only []
    rw [if_neg (by omega)]
    simp only [firstOf, lastOf, List.map_map]
    congr 2
    apply List.map_congr_left
    intro i _
    simp only [Function.comp]
    omega

theorem shownRows_spec {n : Nat} {pt : PrintTarget} {lim : Option Int} {s : Int} {t : Nat} {q : Int}
    (ht : resolveTarget n pt = .ok (q, s, t)) {m : Nat} (hl : maxDataRows q lim = .ok (m : Int))
    (h0 : 0 < n) (hq : 0 < q) (hm : m ≤ t) (h2 : 2 ≤ m ∨ m = n) {k : Nat}
    (hk : k = if m < t then m - 1 else m) (h1 : 1 ≤ k) (hs : s = 0 ∨ 2 ≤ k) :
    shownRows n pt lim = .ok ⟨firstOf s k, lastOf s t k, decide ((k : Int) < q)⟩ := by
  have hkt : k ≤ t := by split at hk <;> omega
  unfold shownRows
  simp only [ht, hl, bind, Except.bind, pure, Except.pure, indicesSplit_spec s hm hk h1 hs]
  rw [if_neg (by omega), if_neg (by omega), if_pos hq, (first_last_within s hkt).2]

/-- C41. `toString()` of an object with points shows all of them in order when the line limit leaves
room (two lines go to the header), refuses limits leaving room for fewer than two rows, and
otherwise shows `limit - 3` points, the first half and the last half, and a placeholder between. -/
theorem C41_shown_rows (n : Nat) (h0 : 0 < n) (lim : Option Int) :
    ((∀ l, lim = some l → (n : Int) ≤ l - 2) →
      ∃ r, shownRows n .none lim = .ok r ∧ r.hold = false ∧
        r.top ++ r.bottom = (List.range n).map (fun (i : Nat) => (i : Int))) ∧
    (∀ l, lim = some l → l - 2 < (n : Int) → l - 2 < 2 →
      shownRows n .none lim = .error .InvalidArgumentValue) ∧
    (∀ l, lim = some l → l - 2 < (n : Int) → 2 ≤ l - 2 →
      ∃ k : Nat, (k : Int) = l - 3 ∧
        shownRows n .none lim = .ok ⟨firstOf 0 k, lastOf 0 n k, true⟩) := by
  refine ⟨?_, ?_, ?_⟩
  · intro h
    have hmd : maxDataRows (n : Int) lim = .ok ((n : Nat) : Int) := by
      cases lim with
      | none => rfl
      | some l =>
        have := h l rfl
        unfold maxDataRows
        simp only []
        rw [if_neg (by omega)]
        congr 1
        omega
    refine ⟨_, shownRows_spec (pt := .none) rfl hmd h0 (by omega) (Nat.le_refl n) (Or.inr rfl)
      (k := n) (by simp) h0 (Or.inl rfl), by simp, ?_⟩
    simpa using first_last_all 0 n
  · rintro l rfl h1 h2
    unfold shownRows
    have : maxDataRows (n : Int) (some l) = .error .InvalidArgumentValue := by
      unfold maxDataRows
      simp only []
      rw [if_pos (by omega)]
    simp only [resolveTarget, this, bind, Except.bind]
  · rintro l rfl h1 h2
    refine ⟨(l - 3).toNat, by omega, ?_⟩
    have hmd : maxDataRows (n : Int) (some l) = .ok (((l - 2).toNat : Nat) : Int) := by
      unfold maxDataRows
      simp only []
      rw [if_neg (by omega)]
      congr 1
      omega
    rw [shownRows_spec (pt := .none) rfl hmd h0 (by omega) (by omega) (by omega)
      (k := (l - 3).toNat) (by rw [if_pos (by omega)]; omega) (by omega) (Or.inl rfl)]
    congr 2
    rw [decide_eq_true_iff]
    omega

/-- C41. Whatever is shown without a point filter is increasing, within the object, and fits the
line limit together with the placeholder; without a placeholder nothing is missing. -/
theorem C41_shown_rows_within {n : Nat} (h0 : 0 < n) {lim : Option Int} {r : ShownRows}
    (h : shownRows n .none lim = .ok r) :
    Within 0 n (r.top ++ r.bottom) ∧
    (∀ l, lim = some l → ((r.top ++ r.bottom).length : Int) + (if r.hold then 1 else 0) ≤ l - 2) ∧
    (r.hold = false → r.top ++ r.bottom = (List.range n).map (fun (i : Nat) => (i : Int))) ∧
    (r.hold = true → 0 ∈ r.top ∧ (r.bottom = [] ∨ ((n : Int) - 1) ∈ r.bottom)) := by
  obtain ⟨c1, c2, c3⟩ := C41_shown_rows n h0 lim
  by_cases hfit : ∀ l, lim = some l → (n : Int) ≤ l - 2
  · obtain ⟨r', e1, e2, e3⟩ := c1 hfit
    rw [h] at e1
    cases e1
    have hall := first_last_within 0 (Nat.le_refl n)
    rw [first_last_all] at hall
    simp only [Int.zero_add] at hall
    rw [e3]
    refine ⟨hall.1, ?_, fun _ => rfl, by simp [e2]⟩
    intro l hl
    have := hfit l hl
    simp [e2]
    omega
  · simp only [not_forall] at hfit
    obtain ⟨l, rfl, hlt⟩ := hfit
    by_cases h2 : l - 2 < 2
    · have := c2 l rfl (by omega) h2
      rw [h] at this
      cases this
    · obtain ⟨k, hk, e⟩ := c3 l rfl (by omega) (by omega)
      rw [h] at e
      cases e
      have hk' : k ≤ n := by omega
      refine ⟨(first_last_within 0 hk').1, ?_, by simp, ?_⟩
      · rintro l' hl'
        cases hl'
        rw [(first_last_within 0 hk').2]
        simp
        omega
      · intro _
        constructor
        · simp only [firstOf, List.mem_map, List.mem_range]
          exact ⟨0, by omega, by simp⟩
        · by_cases h3 : k / 2 = 0
          · left; simp [lastOf, h3]
          · right
            simp only [lastOf, List.mem_map, List.mem_range]
            exact ⟨k / 2 - 1, by omega, by omega⟩

/-- C41. A filter `range(a, b)` inside the object shows exactly its points, or the first and last of
them, when the limit leaves room for three rows or for all of them, and it names two points or more.
(Missing: room for two rows only, ranges of one point, ranges reaching out of the object; all three
fail, see below.) -/
theorem C41_shown_range_partial {n a b : Nat} (hab : a + 2 ≤ b) (hb : b ≤ n) (lim : Option Int) :
    ((∀ l, lim = some l → ((b - a : Nat) : Int) ≤ l - 2) →
      ∃ r, shownRows n (.range a b) lim = .ok r ∧ r.hold = false ∧
        r.top ++ r.bottom = (List.range (b - a)).map (fun (i : Nat) => (a : Int) + (i : Int))) ∧
    (∀ l, lim = some l → l - 2 < ((b - a : Nat) : Int) → 3 ≤ l - 2 →
      ∃ k : Nat, (k : Int) = l - 3 ∧
        shownRows n (.range a b) lim = .ok ⟨firstOf a k, lastOf a (b - a) k, true⟩ ∧
        Within a (b - a) (firstOf a k ++ lastOf a (b - a) k)) := by
  have hr : resolveTarget n (.range a b) = .ok (((b - a : Nat) : Int), (a : Int), b - a) := by
    have e : ((b : Int) - (a : Int)).toNat = b - a := by omega
    simp only [resolveTarget, validateTarget]
    rw [if_neg (by omega), if_neg (by omega)]
    simp only [bind, Except.bind, pure, Except.pure, e]
  constructor
  · intro h
    have hmd : maxDataRows ((b - a : Nat) : Int) lim = .ok ((b - a : Nat) : Int) := by
      cases lim with
      | none => rfl
      | some l =>
        have := h l rfl
        unfold maxDataRows
        simp only []
        rw [if_neg (by omega)]
        congr 1
        omega
    refine ⟨_, shownRows_spec hr hmd (by omega) (by omega) (Nat.le_refl _) (by omega)
      (k := b - a) (by simp) (by omega) (by omega), by simp, ?_⟩
    exact first_last_all a (b - a)
  · rintro l rfl h1 h2
    refine ⟨(l - 3).toNat, by omega, ?_, (first_last_within _ (by omega)).1⟩
    have hmd : maxDataRows ((b - a : Nat) : Int) (some l) = .ok (((l - 2).toNat : Nat) : Int) := by
      unfold maxDataRows
      simp only []
      rw [if_neg (by omega)]
      congr 1
      omega
    rw [shownRows_spec hr hmd (by omega) (by omega) (by omega) (by omega)
      (k := (l - 3).toNat) (by rw [if_pos (by omega)]; omega) (by omega) (by omega)]
    congr 2
    rw [decide_eq_true_iff]
    omega

/-- A concrete truncated display: rows 0, 1, 2 and 8, 9 of ten points, eight lines. -/
example : shownRows 10 .none (some 8) = .ok ⟨[0, 1, 2], [8, 9], true⟩ := by decide
example : shownRows 10 (.range 2 9) (some 6) = .ok ⟨[2, 3], [8], true⟩ := by decide

/-- C41 fails for a filter with room for two rows: point 0, outside the filter, is shown. -/
theorem C41_range_start_violated :
    shownRows 10 (.range 5 9) (some 4) = .ok ⟨[0], [], true⟩ := by decide

/-- C41 fails for a filter naming one point: it is refused whatever the limit. -/
theorem C41_one_point_range_violated {n a : Nat} (h : a < n) (h2 : 2 ≤ n) (lim : Option Int)
    (hl : ∀ l, lim = some l → 3 ≤ l) :
    shownRows n (.range a (a + 1)) lim = .error .InvalidArgumentValue := by
  have e : ((a : Int) + 1 - (a : Int)).toNat = 1 := by omega
  have hmd : maxDataRows (1 : Int) lim = .ok 1 := by
    cases lim with
    | none => rfl
    | some l =>
      have := hl l rfl
      unfold maxDataRows
      simp only []
      rw [if_neg (by omega)]
      congr 1
      omega
  unfold shownRows
  simp only [resolveTarget, validateTarget]
  rw [if_neg (by omega), if_neg (by omega)]
  simp only [bind, Except.bind, pure, Except.pure, e, Nat.cast_one, hmd]
  rw [if_neg (by omega)]
  have : indicesSplit 1 (a : Int) 1 = .ok ([0], []) := by
    unfold indicesSplit
    simp
  simp only [this]
  rw [if_pos (by omega)]

/-- C41 fails for a filter reaching out of the object: documented to be cut off, it raises. -/
theorem C41_range_outside_violated {n : Nat} (a b : Int) (h : a < 0 ∨ (n : Int) < b)
    (lim : Option Int) : shownRows n (.range a b) lim = .error .TypeError := by
  have : validateTarget a b n = .error .TypeError := by
    unfold validateTarget
    by_cases ha : a < 0
    · rw [if_pos ha]
    · rw [if_neg ha, if_pos (by omega)]
  unfold shownRows
  simp only [resolveTarget, this, bind, Except.bind]

/-- C41 fails for `points=1`: asking for one of several points raises. -/
theorem C41_points_one_violated {n : Nat} (h : 2 ≤ n) :
    shownRows n (.int 1) none = .error .IndexError := by
  have e : min (1 : Int) (n : Int) = 1 := by omega
  have e2 : (if (1 : Int) < (n : Int) then (1 : Int) - 1 else 1) = 0 := by rw [if_pos (by omega)]; rfl
  have : indicesSplit 1 0 n = .error .IndexError := by
    unfold indicesSplit
    simp only [e2]
    rw [if_neg (by omega)]
    rfl
  unfold shownRows
  simp only [resolveTarget, maxDataRows, bind, Except.bind, e]
  rw [if_neg (by omega), this]

/-- C41. `points=k` with at least two points asked for: all points when there are no more than `k`,
else `k - 1` points from both ends of the object and a placeholder. -/
theorem C41_points_number {n k : Nat} (h : 2 ≤ k) (h0 : 0 < n) :
    (n ≤ k → ∃ r, shownRows n (.int k) none = .ok r ∧ r.hold = false ∧
      r.top ++ r.bottom = (List.range n).map (fun (i : Nat) => (i : Int))) ∧
    (k < n → shownRows n (.int k) none = .ok ⟨firstOf 0 (k - 1), lastOf 0 n (k - 1), true⟩) := by
  constructor
  · intro hk
    have hr : resolveTarget n (.int k) = .ok ((n : Int), 0, n) := by
      simp only [resolveTarget]; congr 2; omega
    refine ⟨_, shownRows_spec hr (m := n) rfl h0 (by omega) (Nat.le_refl n) (Or.inr rfl)
      (k := n) (by simp) h0 (Or.inl rfl), by simp, ?_⟩
    simpa using first_last_all 0 n
  · intro hk
    have hr : resolveTarget n (.int k) = .ok ((k : Int), 0, n) := by
      simp only [resolveTarget]; congr 2; omega
    rw [shownRows_spec hr (m := k) rfl h0 (by omega) (by omega) (Or.inl h)
      (k := k - 1) (by rw [if_pos hk]) (by omega) (Or.inl rfl)]
    congr 2
    rw [decide_eq_true_iff]
    omega

/-! ## Features -/

/-- Total width of the given columns. -/
def sumW (w : Nat → Nat) (cols : List Nat) : Int := ((cols.map w).sum : Nat)

/-- The width of the shown table: the columns, the placeholder (two characters) if there is one, and
two characters between neighbours. -/
def tableWidth (w : Nat → Nat) (c : ShownCols) : Int :=
  sumW w (c.left ++ c.right) + (if c.hold then 2 else 0) +
    2 * (((c.left ++ c.right).length : Int) + (if c.hold then 1 else 0) - 1)

/-- The first `a` and the last `b` of `n` columns. -/
def firstCols (a : Nat) : List Nat := List.range a
def lastCols (n b : Nat) : List Nat := (List.range b).map (fun i => n - b + i)

/-- The first `k` columns looked at, in that order. -/
def colAt (n k : Nat) : Nat := if k % 2 = 0 then k / 2 else n - (k + 1) / 2

def curOf (k : Nat) : Int := if k % 2 = 0 then ((k / 2 : Nat) : Int) else -(((k + 1) / 2 : Nat) : Int)

theorem curOf_inj {j k : Nat} (h : curOf j = curOf k) : j = k := by
  unfold curOf at h
  split at h <;> split at h <;> omega

theorem endIndex_eq (n : Nat) : endIndex n = curOf n := by
  unfold endIndex curOf
  split <;> split <;> omega

theorem accessIndex_curOf {n k : Nat} (h : k < n) : accessIndex n (curOf k) = colAt n k := by
  unfold accessIndex curOf colAt
  split <;> split <;> omega

/-- Widths of the first `k` columns looked at. -/
def pre (n : Nat) (w : Nat → Nat) (k : Nat) : Int := (((List.range k).map (fun i => w (colAt n i))).sum : Nat)

theorem pre_succ (n : Nat) (w : Nat → Nat) (k : Nat) : pre n w (k + 1) = pre n w k + (w (colAt n k) : Int) := by
  simp [pre, List.range_succ]

/-- The loop state after `k` columns were added, with width `t`. -/
def stAt (n k : Nat) (t : Int) : ColSt :=
  ⟨curOf k, t, k, firstCols ((k + 1) / 2), (lastCols n (k / 2)).reverse⟩

theorem colBody_fail {n k : Nat} (w : Nat → Nat) {M t : Int} (hk : k < n)
    (h : M < t + (w (colAt n k) : Int)) :
    colBody n w M (stAt n k t) =
      stAt n k (t + (w (colAt n k) : Int) + 2 - if k + 1 = n then 4 else 0) := by
  unfold colBody
  simp only [stAt, accessIndex_curOf hk]
  rw [if_neg (by omega)]
  simp only [colSepLen, cHoldTotal]
  by_cases h1 : k + 1 = n
  · rw [if_pos (by omega), if_pos h1]
    congr 1
    omega
  · rw [if_neg (by omega), if_neg h1]
    congr 1
    omega

theorem colBody_add {n k : Nat} (w : Nat → Nat) {M t : Int} (hk : k < n)
    (h : t + (w (colAt n k) : Int) ≤ M) :
    colBody n w M (stAt n k t) =
      stAt n (k + 1) (t + (w (colAt n k) : Int) + 2 - if k + 2 = n then 4 else 0) := by
  unfold colBody
  simp only [stAt, accessIndex_curOf hk]
  rw [if_pos h]
  by_cases hc : k % 2 = 0
  · have h1 : ¬ curOf k < 0 := by unfold curOf; rw [if_pos hc]; omega
    have h2 : -curOf k - 1 = curOf (k + 1) := by
      unfold curOf; rw [if_pos hc, if_neg (by omega)]; omega
    have h3 : firstCols ((k + 1) / 2) ++ [colAt n k] = firstCols ((k + 1 + 1) / 2) := by
      unfold firstCols colAt
      rw [if_pos hc]
      have : (k + 1 + 1) / 2 = (k + 1) / 2 + 1 := by omega
      rw [this, List.range_succ]
      congr 2
      omega
    have h4 : (k + 1) / 2 = k / 2 := by omega
    rw [if_neg h1]
    rw [h2, h3]
    simp only [colSepLen, cHoldTotal]
    by_cases h5 : k + 2 = n
    · rw [if_pos (by omega), if_pos h5, h4]; congr 1; omega
    · rw [if_neg (by omega), if_neg h5, h4]; congr 1; omega
  · have h1 : curOf k < 0 := by unfold curOf; rw [if_neg hc]; omega
    have h2 : -curOf k = curOf (k + 1) := by
      unfold curOf; rw [if_neg hc, if_pos (by omega)]; omega
    have h3 : (lastCols n (k / 2)).reverse ++ [colAt n k] = (lastCols n ((k + 1) / 2)).reverse := by
      unfold lastCols colAt
      rw [if_neg hc]
      have : (k + 1) / 2 = k / 2 + 1 := by omega
      rw [this, List.range_succ_eq_map, List.map_cons, List.reverse_cons, List.map_map]
      congr 1
      congr 1
      apply List.map_congr_left
      intro i _
      simp only [Function.comp]
      omega
    have h4 : (k + 1 + 1) / 2 = (k + 1) / 2 := by omega
    rw [if_pos h1]
    simp only [colSepLen, cHoldTotal, h2, h3, h4]
    by_cases h5 : k + 2 = n
    · rw [if_pos (by omega), if_pos h5]; congr 1; omega
    · rw [if_neg (by omega), if_neg h5]; congr 1; omega

theorem colLoops_iff {n k : Nat} {M t : Int} :
    colLoops n M (stAt n k t) = true ↔ t < M ∧ k ≠ n := by
  unfold colLoops
  rw [Bool.and_eq_true, decide_eq_true_iff, decide_eq_true_iff, endIndex_eq]
  refine and_congr Iff.rfl (not_congr ⟨fun h => curOf_inj h, ?_⟩)
  rintro rfl
  rfl

/-- When the column does not fit and the width never shrinks the loop ends without it. -/
theorem colLoop_stuck {n k : Nat} {w : Nat → Nat} {M : Int} (hk : k < n)
    (hw : k + 1 = n → 3 ≤ w (colAt n k)) (d : Nat) :
    ∀ t : Int, M - t ≤ d → M < t + (w (colAt n k) : Int) →
      ∃ fuel t', colLoop n w M fuel (stAt n k t) = some (stAt n k t') := by
  induction d with
  | zero =>
    intro t hd _
    refine ⟨1, t, ?_⟩
    unfold colLoop
    rw [if_neg (by rw [colLoops_iff]; omega)]
  | succ d ih =>
    intro t hd hf
    by_cases hl : t < M
    · have hstep := colBody_fail w hk hf
      obtain ⟨fuel, t', e⟩ := ih (t + (w (colAt n k) : Int) + 2 - if k + 1 = n then 4 else 0)
        (by split <;> omega) (by split <;> omega)
      refine ⟨fuel + 1, t', ?_⟩
      unfold colLoop
      rw [if_pos (colLoops_iff.2 ⟨hl, by omega⟩), hstep]
      exact e
    · refine ⟨1, t, ?_⟩
      unfold colLoop
      rw [if_neg (by rw [colLoops_iff]; omega)]

/-- `totalWidth` after `k` columns were added. -/
def widthAt (n : Nat) (w : Nat → Nat) (k : Nat) : Int :=
  pre n w k + 2 * (k : Int) + (if k + 1 < n ∨ k = 0 then 4 else 0)

theorem widthAt_succ {n k : Nat} (w : Nat → Nat) (hk : k < n) :
    widthAt n w k + (w (colAt n k) : Int) + 2 - (if k + 2 = n then 4 else 0) = widthAt n w (k + 1) ∨
    (n = 1 ∧ k = 0) := by
  by_cases h1 : n = 1
  · right; omega
  left
  unfold widthAt
  rw [pre_succ]
  split <;> split <;> split <;> omega

/-- What the loop guarantees when it ends. -/
structure LoopEnd (n : Nat) (w : Nat → Nat) (M : Int) (k : Nat) : Prop where
  le : k ≤ n
  fits : 0 < k → (if k = n then pre n w k + 2 * ((k : Int) - 1) else pre n w k + 2 * (k : Int) + 2) ≤ M
  stop : k < n → M ≤ widthAt n w k ∨ M < widthAt n w k + (w (colAt n k) : Int)

theorem colLoop_spec {n : Nat} {w : Nat → Nat} {M : Int} (hn : 1 < n) (d : Nat) :
    ∀ k : Nat, n - k ≤ d → k ≤ n → (0 < k → (if k = n then pre n w k + 2 * ((k : Int) - 1)
        else pre n w k + 2 * (k : Int) + 2) ≤ M) →
      ∃ fuel t' k', colLoop n w M fuel (stAt n k (widthAt n w k)) = some (stAt n k' t') ∧
        LoopEnd n w M k' := by
  induction d with
  | zero =>
    intro k hd hk hf
    have : k = n := by omega
    subst this
    refine ⟨1, widthAt k w k, k, ?_, ⟨Nat.le_refl _, hf, fun h => absurd h (Nat.lt_irrefl _)⟩⟩
    unfold colLoop
    rw [if_neg (by rw [colLoops_iff]; omega)]
  | succ d ih =>
    intro k hd hk hf
    by_cases hl : widthAt n w k < M ∧ k ≠ n
    · have hkn : k < n := by omega
      by_cases ha : widthAt n w k + (w (colAt n k) : Int) ≤ M
      · have hstep := colBody_add w hkn ha
        have hw : widthAt n w k + (w (colAt n k) : Int) + 2 - (if k + 2 = n then 4 else 0) =
            widthAt n w (k + 1) := by
          rcases widthAt_succ w hkn with h | h
          · exact h
          · omega
        rw [hw] at hstep
        obtain ⟨fuel, t', k', e, he⟩ := ih (k + 1) (by omega) (by omega) (fun _ => by
          have hp := pre_succ n w k
          unfold widthAt at ha
          split <;> split at ha <;> omega)
        refine ⟨fuel + 1, t', k', ?_, he⟩
        unfold colLoop
        rw [if_pos (colLoops_iff.2 hl), hstep]
        exact e
      · have h3 : k + 1 = n → 3 ≤ w (colAt n k) := by
          intro hkn
          have h0 : 0 < k := by omega
          have := hf h0
          rw [if_neg (by omega)] at this
          unfold widthAt at ha
          rw [if_neg (by omega)] at ha
          omega
        obtain ⟨fuel, t', e⟩ := colLoop_stuck (M := M) hkn h3 (M - widthAt n w k).toNat
          (widthAt n w k) (by omega) (by omega)
        exact ⟨fuel, t', k, e, ⟨hk, hf, fun _ => Or.inr (by omega)⟩⟩
    · refine ⟨1, widthAt n w k, k, ?_, ⟨hk, hf, fun h => Or.inl (by omega)⟩⟩
      unfold colLoop
      rw [if_neg (by rw [colLoops_iff]; exact hl)]

theorem colInit_eq (n : Nat) (w : Nat → Nat) : colInit = stAt n 0 (widthAt n w 0) := by
  simp [colInit, stAt, widthAt, pre, curOf, firstCols, lastCols, cHoldTotal]

/-- A single column. -/
theorem colLoop_one {w : Nat → Nat} {M : Int} (h : ¬ (w 0 = 2 ∧ M = 5)) :
    ∃ fuel t' k', colLoop 1 w M fuel colInit = some (stAt 1 k' t') ∧ LoopEnd 1 w M k' := by
  rw [colInit_eq 1 w]
  have hw0 : widthAt 1 w 0 = 4 := by simp [widthAt, pre]
  have hc : colAt 1 0 = 0 := rfl
  rw [hw0]
  by_cases hl : (4 : Int) < M
  · by_cases ha : (4 : Int) + (w 0 : Int) ≤ M
    · refine ⟨2, 4 + (w 0 : Int) + 2 - (if 0 + 2 = 1 then 4 else 0), 1, ?_, ⟨Nat.le_refl _, fun _ => ?_, fun h => absurd h (Nat.lt_irrefl _)⟩⟩
      · rw [colLoop, if_pos (colLoops_iff.2 ⟨hl, by omega⟩), colBody_add w (by omega) ha, colLoop,
          if_neg (by rw [colLoops_iff]; omega)]
        rfl
      · rw [if_pos rfl]
        simp [pre, colAt]
        omega
    · obtain ⟨fuel, t', e⟩ := colLoop_stuck (n := 1) (k := 0) (w := w) (M := M) (by omega)
        (by intro _; rw [hc]; omega) (M - 4).toNat 4 (by omega) (by rw [hc]; omega)
      exact ⟨fuel, t', 0, e, ⟨by omega, by omega, fun _ => Or.inr (by rw [hw0, hc]; omega)⟩⟩
  · refine ⟨1, 4, 0, ?_, ⟨by omega, by omega, fun _ => Or.inl (by rw [hw0]; omega)⟩⟩
    rw [colLoop, if_neg (by rw [colLoops_iff]; omega)]

theorem pre_shown (n : Nat) (w : Nat → Nat) {k : Nat} (hk : k ≤ n) :
    pre n w k = sumW w (firstCols ((k + 1) / 2) ++ lastCols n (k / 2)) := by
  induction k with
  | zero => simp [pre, sumW, firstCols, lastCols]
  | succ k ih =>
    rw [pre_succ, ih (by omega)]
    by_cases hc : k % 2 = 0
    · have e1 : (k + 1 + 1) / 2 = (k + 1) / 2 + 1 := by omega
      have e2 : (k + 1) / 2 = k / 2 := by omega
      have e3 : colAt n k = k / 2 := by unfold colAt; rw [if_pos hc]
      rw [e1, e3, e2]
      simp only [sumW, firstCols, List.range_succ, List.map_append, List.sum_append, List.map_cons,
        List.map_nil, List.sum_cons, List.sum_nil]
      omega
    · have e1 : (k + 1 + 1) / 2 = (k + 1) / 2 := by omega
      have e2 : (k + 1) / 2 = k / 2 + 1 := by omega
      have e3 : colAt n k = n - (k + 1) / 2 := by unfold colAt; rw [if_neg hc]
      have e4 : lastCols n (k / 2 + 1) = (n - (k / 2 + 1)) :: lastCols n (k / 2) := by
        unfold lastCols
        rw [List.range_succ_eq_map, List.map_cons, List.map_map]
        congr 1
        apply List.map_congr_left
        intro i _
        simp only [Function.comp]
        omega
      rw [e1, e3, e2, e4]
      simp only [sumW, List.map_append, List.sum_append, List.map_cons, List.sum_cons]
      omega

theorem shownCols_spec {n : Nat} {w : Nat → Nat} {M : Int} (hn : 0 < n)
    (h : ¬ (n = 1 ∧ w 0 = 2 ∧ M = 5)) :
    ∃ fuel k, LoopEnd n w M k ∧ shownCols n w M fuel =
      some ⟨firstCols ((k + 1) / 2), lastCols n (k / 2), decide (k ≠ n)⟩ := by
  have : ∃ fuel t' k', colLoop n w M fuel colInit = some (stAt n k' t') ∧ LoopEnd n w M k' := by
    by_cases h1 : n = 1
    · subst h1
      exact colLoop_one (by tauto)
    · rw [colInit_eq n w]
      exact colLoop_spec (by omega) n 0 (by omega) (by omega) (by omega)
  obtain ⟨fuel, t', k, e, he⟩ := this
  refine ⟨fuel, k, he, ?_⟩
  unfold shownCols
  rw [e]
  simp [stAt]

/-- C55. The loop choosing the columns ends (unless there is one column, of width 2, and room for
five characters); it shows the first and the last columns, at most one more on the left, a
placeholder exactly when something is left out, and the table fits the given width when it has a
column. -/
theorem C55_columns_partial {n : Nat} {w : Nat → Nat} {M : Int} (hn : 0 < n)
    (h : ¬ (n = 1 ∧ w 0 = 2 ∧ M = 5)) :
    ∃ fuel c a b, shownCols n w M fuel = some c ∧ c.left = firstCols a ∧ c.right = lastCols n b ∧
      (a = b ∨ a = b + 1) ∧ a + b ≤ n ∧ (c.hold = true ↔ a + b < n) ∧
      (0 < a → tableWidth w c ≤ M) := by
  obtain ⟨fuel, k, he, e⟩ := shownCols_spec hn h
  refine ⟨fuel, _, (k + 1) / 2, k / 2, e, rfl, rfl, by omega, by have := he.le; omega, ?_, ?_⟩
  · have := he.le
    simp only [decide_eq_true_iff]
    omega
  · intro hk
    have hf := he.fits (by omega)
    have hlen : (firstCols ((k + 1) / 2) ++ lastCols n (k / 2)).length = k := by
      simp only [firstCols, lastCols, List.length_append, List.length_range, List.length_map]
      omega
    unfold tableWidth
    simp only [hlen, ← pre_shown n w he.le]
    by_cases hkn : k = n
    · rw [if_pos hkn] at hf
      simp [hkn]
      rw [hkn] at hf
      omega
    · rw [if_neg hkn] at hf
      simp [hkn]
      omega

/-- C55. Two or more columns, each at least two wide, that fit are all shown. -/
theorem C55_fitting_columns_shown {n : Nat} {w : Nat → Nat} {M : Int} (hn : 1 < n)
    (hw : ∀ j < n, 2 ≤ w j) (hfit : sumW w (List.range n) + 2 * ((n : Int) - 1) ≤ M) :
    ∃ fuel c, shownCols n w M fuel = some c ∧ c.hold = false ∧ c.left ++ c.right = List.range n := by
  obtain ⟨fuel, k, he, e⟩ := shownCols_spec (w := w) (M := M) (show 0 < n by omega) (by omega)
  have hall : firstCols ((n + 1) / 2) ++ lastCols n (n / 2) = List.range n := by
    have h2 : n = (n + 1) / 2 + n / 2 := by omega
    unfold firstCols lastCols
    conv => rhs; rw [h2, List.range_add]
    congr 1
    apply List.map_congr_left
    intro i _
    omega
  have htot : pre n w n = sumW w (List.range n) := by rw [pre_shown n w (Nat.le_refl n), hall]
  have hcol : ∀ j < n, colAt n j < n := by
    intro j hj
    unfold colAt
    split <;> omega
  -- widths of the columns not yet looked at
  have hrest : ∀ d j, j + d = n → pre n w j + 2 * (d : Int) ≤ pre n w n := by
    intro d
    induction d with
    | zero => intro j hj; simp at hj; subst hj; simp
    | succ d ih =>
      intro j hj
      have h1 := ih (j + 1) (by omega)
      have h2 := hw _ (hcol j (by omega))
      rw [pre_succ] at h1
      push_cast
      omega
  have hkn : k = n := by
    by_contra hne
    have hlt : k < n := by have := he.le; omega
    have h2 := hw _ (hcol k hlt)
    have h3 := hrest (n - (k + 1)) (k + 1) (by omega)
    rw [pre_succ] at h3
    have hs := he.stop hlt
    unfold widthAt at hs
    by_cases hk : k + 1 < n ∨ k = 0
    · rw [if_pos hk] at hs
      omega
    · rw [if_neg hk] at hs
      omega
  subst hkn
  exact ⟨fuel, _, e, by simp, hall⟩

/-- Nine columns of width 5 in 40 characters: three left, two right and the placeholder. -/
example : shownCols 9 (fun _ => 5) 40 20 = some ⟨[0, 1, 2], [7, 8], true⟩ := by decide
example : shownCols 3 (fun j => j + 2) 13 20 = some ⟨[0, 1], [2], false⟩ := by decide

/-- C55 fails for one column of width 2 in a width of five: the loop never ends. -/
theorem C55_never_ends_violated (w : Nat → Nat) (h : w 0 = 2) (fuel : Nat) :
    shownCols 1 w 5 fuel = none := by
  have key : ∀ fuel, colLoop 1 w 5 fuel (stAt 1 0 4) = none := by
    intro fuel
    induction fuel with
    | zero => rfl
    | succ fuel ih =>
      rw [colLoop, if_pos (colLoops_iff.2 ⟨by omega, by omega⟩), colBody_fail w (by omega)
        (by show (5 : Int) < 4 + (w 0 : Int); omega)]
      have : (4 : Int) + (w (colAt 1 0) : Int) + 2 - (if 0 + 1 = 1 then 4 else 0) = 4 := by
        show (4 : Int) + (w 0 : Int) + 2 - _ = 4
        simp [h]
      rw [this]
      exact ih
  have hw0 : widthAt 1 w 0 = 4 := by simp [widthAt, pre]
  unfold shownCols
  rw [colInit_eq 1 w, hw0, key fuel]
  rfl

/-- C55 fails for tables which fit but leave no room for the placeholder: one column of width 5 in a
width of eight is left out. -/
theorem C55_fitting_column_violated :
    shownCols 1 (fun _ => 5) 8 20 = some ⟨[], [], true⟩ := by decide

end Nimble
