import Verif.Props.Normalize
import Mathlib.Data.List.Count
import Mathlib.Data.List.Perm.Basic
import Mathlib.Algebra.BigOperators.Group.List.Lemmas
import Mathlib.Tactic.NormNum

/-!
# C59: normalization – percentiles
-/

namespace Nimble

/-! ### Specification -/

/-- The mean of the ranks (counted from 0) of the elements equal to `v` among the values `l`. -/
def midRank (l : List ℚ) (v : ℚ) : ℚ :=
  (l.countP (fun x => decide (x < v)) : ℚ) + ((l.count v : ℚ) - 1) / 2

/-- The percentile `(k - 1) / (n - 1)` of the documentation. -/
def percentileOf (l : List ℚ) (v : ℚ) : ℚ := midRank l v / ((l.length : ℚ) - 1)

/-! ### Sorted lists -/

/-- The sum of the positions (from `i`) of `some v`. -/
def idxSum (v : ℚ) : List (Option ℚ) → Nat → ℚ
  | [], _ => 0
  | a :: l, i => (if a = some v then (i : ℚ) else 0) + idxSum v l (i + 1)

/-- Strictly before `v` in the order of `np.argsort`. -/
def argLt (v : ℚ) (a : Option ℚ) : Bool := ! nanLe (some v) a

theorem argLt_none (v : ℚ) : argLt v none = false := rfl

theorem argLt_some (v a : ℚ) : argLt v (some a) = decide (a < v) := by
  unfold argLt nanLe
  by_cases h : a < v
  · simp [h]
  · simp [h, not_lt.1 h]

theorem sorted_rest {a : Option ℚ} {l : List (Option ℚ)} {v : ℚ}
    (h : (a :: l).Pairwise (fun a b => nanLe a b = true)) (ha : argLt v a = false) :
    l.countP (argLt v) = 0 := by
  rw [List.countP_eq_zero]
  intro b hb
  have hab := (List.pairwise_cons.1 h).1 b hb
  cases b with
  | none => simp [argLt_none]
  | some y =>
    cases a with
    | none => simp [nanLe] at hab
    | some x =>
      simp only [nanLe, decide_eq_true_eq] at hab
      simp only [argLt_some, decide_eq_false_iff_not, decide_eq_true_eq, not_lt] at ha ⊢
      exact le_trans ha hab

theorem idxSum_sorted (v : ℚ) : ∀ (s : List (Option ℚ)) (i : Nat),
    s.Pairwise (fun a b => nanLe a b = true) →
    idxSum v s i = (s.count (some v) : ℚ) * (i + s.countP (argLt v))
      + (s.count (some v) : ℚ) * ((s.count (some v) : ℚ) - 1) / 2
  | [], i, _ => by simp [idxSum]
  | a :: l, i, h => by
    have ih := idxSum_sorted v l (i + 1) (List.pairwise_cons.1 h).2
    unfold idxSum
    rw [ih]
    by_cases e : a = some v
    · subst e
      have h0 := sorted_rest h (v := v) (by simp [argLt_some])
      have h1 : argLt v (some v) = false := by simp [argLt_some]
      rw [List.count_cons_self, List.countP_cons_of_neg (by simp [h1]), h0, if_pos rfl]
      push_cast
      ring
    · rw [List.count_cons_of_ne e, if_neg e]
      by_cases hlt : argLt v a = true
      · rw [List.countP_cons_of_pos hlt]
        push_cast
        ring
      · have hf : argLt v a = false := by simpa using hlt
        have h0 := sorted_rest h hf
        have hc : l.count (some v) = 0 := by
          rw [List.count_eq_zero]
          intro hm
          have := (List.pairwise_cons.1 h).1 _ hm
          cases a with
          | none => simp [nanLe] at this
          | some x =>
            simp only [nanLe, decide_eq_true_eq] at this
            simp only [argLt_some, decide_eq_false_iff_not, not_lt] at hf
            exact e (by rw [le_antisymm this hf])
        rw [hc, List.countP_cons_of_neg hlt]
        simp

/-! ### The loop over the sorted indices -/

theorem percLoop_length (eps : ℚ) : ∀ (order : List Nat) (i : Nat) (p : List (Option ℚ)),
    (percLoop eps order i p).length = p.length
  | [], _, _ => rfl
  | a :: l, i, p => by
    unfold percLoop
    rw [percLoop_length eps l]
    split <;> simp

theorem percLoop_notMem (eps : ℚ) : ∀ (order : List Nat) (i : Nat) (p : List (Option ℚ)) (j : Nat),
    j ∉ order → (percLoop eps order i p)[j]? = p[j]?
  | [], _, _, _, _ => rfl
  | a :: l, i, p, j, h => by
    unfold percLoop
    rw [percLoop_notMem eps l _ _ _ (fun hm => h (List.mem_cons_of_mem _ hm))]
    split
    · rfl
    · rw [List.getElem?_set_ne]
      rintro rfl
      exact h (by simp)

theorem percLoop_missing (eps : ℚ) : ∀ (order : List Nat) (i : Nat) (p : List (Option ℚ)) (j : Nat),
    p[j]? = some none → (percLoop eps order i p)[j]? = some none
  | [], _, _, _, h => h
  | a :: l, i, p, j, h => by
    unfold percLoop
    apply percLoop_missing eps l
    split
    · exact h
    · rename_i hn
      rw [List.getElem?_set_ne]
      · exact h
      · rintro rfl
        rw [h] at hn
        exact hn rfl

theorem percLoop_at (eps : ℚ) : ∀ (order : List Nat) (i : Nat) (p : List (Option ℚ)) (k j : Nat) (x : ℚ),
    order.Nodup → order[k]? = some j → p[j]? = some (some x) →
    (percLoop eps order i p)[j]? = some (some (((i + k : Nat) : ℚ) * eps))
  | [], _, _, k, _, _, _, h, _ => by simp at h
  | a :: l, i, p, 0, j, x, hn, h, hp => by
    rw [List.getElem?_cons_zero] at h
    obtain rfl := Option.some.inj h
    unfold percLoop
    rw [percLoop_notMem eps l _ _ _ (List.nodup_cons.1 hn).1]
    have hb : (p[a]?).join.isNone = false := by rw [hp]; rfl
    have hlt : a < p.length := by
      by_contra hc
      rw [List.getElem?_eq_none (Nat.le_of_not_lt hc)] at hp
      cases hp
    rw [hb, if_neg (by simp), List.getElem?_set_self hlt]
    simp
  | a :: l, i, p, k + 1, j, x, hn, h, hp => by
    rw [List.getElem?_cons_succ] at h
    unfold percLoop
    have hj : j ∈ l := List.mem_of_getElem? h
    have hne : a ≠ j := by rintro rfl; exact (List.nodup_cons.1 hn).1 hj
    have := percLoop_at eps l (i + 1)
      (if (p[a]?).join.isNone then p else p.set a (some (i * eps))) k j x (List.nodup_cons.1 hn).2 h
      (by
        split
        · exact hp
        · rw [List.getElem?_set_ne hne]; exact hp)
    rw [this]
    congr 3
    push_cast
    ring

/-! ### Equal values -/

theorem sum_map_getElem? {B : Type} (g : B → ℚ) (l : List B) :
    (l.map g).sum = ((List.range l.length).map (fun j => ((l[j]?).map g).getD 0)).sum := by
  induction l with
  | nil => rfl
  | cons a l ih =>
    rw [List.length_cons, List.range_succ_eq_map, List.map_cons, List.map_cons, List.sum_cons,
      List.sum_cons, ih, List.map_map]
    rfl

/-- The contribution of one element to the sum. -/
def contrib (v : ℚ) (ap : Option ℚ × Option ℚ) : ℚ :=
  if ap.1 = some v then ap.2.getD 0 else 0

theorem samePercs_sum (arr p : List (Option ℚ)) (v : ℚ) :
    (samePercs arr p v).sum = ((arr.zip p).map (contrib v)).sum := by
  unfold samePercs
  induction arr.zip p with
  | nil => rfl
  | cons a l ih =>
    rw [List.filterMap_cons, List.map_cons, List.sum_cons, ← ih]
    unfold contrib
    by_cases h : a.1 = some v
    · rw [if_pos h]
      cases h2 : a.2 with
      | none => simp [h2, h]
      | some x => simp [h2, h]
    · simp [h]

theorem samePercs_length (v : ℚ) : ∀ (arr p : List (Option ℚ)), arr.length = p.length →
    (∀ (j : Nat) (x : ℚ), arr[j]? = some (some x) → ∃ y, p[j]? = some (some y)) →
    (samePercs arr p v).length = arr.count (some v)
  | [], _, _, _ => rfl
  | a :: l, [], h, _ => by simp at h
  | a :: l, b :: q, h, hp => by
    have ih := samePercs_length v l q (by simpa using h) (fun j x hj => hp (j + 1) x hj)
    unfold samePercs at ih ⊢
    rw [List.zip_cons_cons, List.filterMap_cons]
    by_cases e : a = some v
    · obtain ⟨y, hy⟩ := hp 0 v (by simp [e])
      have hb : b = some y := by simpa using hy
      subst e hb
      simp [ih]
    · simp only [e, if_false]
      rw [ih, List.count_cons_of_ne e]

theorem order_sum (v eps : ℚ) (arr p : List (Option ℚ)) : ∀ (order : List Nat) (i : Nat),
    (∀ k j, order[k]? = some j → arr[j]? = some (some v) → p[j]? = some (some (((i + k : Nat) : ℚ) * eps))) →
    (∀ j ∈ order, j < arr.length ∧ j < p.length) →
    (order.map (fun j => (((arr.zip p)[j]?).map (contrib v)).getD 0)).sum
      = eps * idxSum v (order.map (fun j => (arr[j]?).join)) i
  | [], _, _, _ => by simp [idxSum]
  | a :: l, i, h, hlen => by
    have ih := order_sum v eps arr p l (i + 1)
      (fun k j hk hj => by
        have := h (k + 1) j hk hj
        rw [this]; congr 3; push_cast; ring)
      (fun j hj => hlen j (List.mem_cons_of_mem _ hj))
    rw [List.map_cons, List.sum_cons, ih, List.map_cons, idxSum, mul_add]
    congr 1
    obtain ⟨ha, hpa⟩ := hlen a (by simp)
    have hz : (arr.zip p)[a]? = some (arr[a], p[a]) := by
      rw [List.getElem?_eq_getElem (by simp; omega)]
      simp
    rw [hz]
    have hj : (arr[a]?).join = arr[a] := by rw [List.getElem?_eq_getElem ha]; rfl
    rw [hj]
    simp only [Option.map_some, Option.getD_some, contrib]
    by_cases e : arr[a] = some v
    · rw [if_pos e, if_pos e]
      have := h 0 a (by simp) (by rw [List.getElem?_eq_getElem ha, e])
      rw [List.getElem?_eq_getElem hpa] at this
      rw [Option.some.inj this]
      simp [mul_comm]
    · rw [if_neg e, if_neg e]; simp

theorem order_map_perm {arr : List (Option ℚ)} {order : List Nat} (h : IsArgsort arr order) :
    (order.map (fun j => (arr[j]?).join)).Perm arr := by
  have h1 := h.perm.map (fun j => (arr[j]?).join)
  have h2 : (List.range arr.length).map (fun j => (arr[j]?).join) = arr := by
    apply List.ext_getElem?
    intro j
    rw [List.getElem?_map]
    by_cases hj : j < arr.length
    · rw [List.getElem?_range hj, List.getElem?_eq_getElem hj]
      simp [List.getElem?_eq_getElem hj]
    · rw [List.getElem?_eq_none (by simpa using hj), List.getElem?_eq_none (by simpa using hj)]
      rfl
  rwa [h2] at h1

theorem countP_argLt (arr : List (Option ℚ)) (v : ℚ) :
    arr.countP (argLt v) = (present arr).countP (fun x => decide (x < v)) := by
  unfold present
  induction arr with
  | nil => rfl
  | cons a l ih =>
    cases a with
    | none => simpa [List.countP_cons, argLt_none] using ih
    | some x =>
      rw [List.filterMap_cons_some (by rfl : id (some x) = some x), List.countP_cons, List.countP_cons, ih,
        argLt_some]

theorem count_present (arr : List (Option ℚ)) (v : ℚ) : arr.count (some v) = (present arr).count v := by
  unfold present
  induction arr with
  | nil => rfl
  | cons a l ih =>
    cases a with
    | none => simpa using ih
    | some x =>
      rw [List.filterMap_cons_some (by rfl : id (some x) = some x), List.count_cons, List.count_cons, ih]
      simp

/-- The mean of the percentiles of the elements equal to `v`, after the loop. -/
theorem samePercs_mean {arr : List (Option ℚ)} {order : List Nat} (h : IsArgsort arr order) (eps v : ℚ)
    (hv : some v ∈ arr) :
    let same := samePercs arr (percLoop eps order 0 arr) v
    same.length = (present arr).count v ∧ same.sum / same.length = midRank (present arr) v * eps := by
  intro same
  have hnd : order.Nodup := h.perm.nodup_iff.2 List.nodup_range
  have hmem : ∀ j, j ∈ order ↔ j < arr.length := fun j => by rw [h.perm.mem_iff, List.mem_range]
  have hlen : (percLoop eps order 0 arr).length = arr.length := percLoop_length _ _ _ _
  have hsome : ∀ j x, arr[j]? = some (some x) →
      ∃ k, order[k]? = some j ∧ (percLoop eps order 0 arr)[j]? = some (some (((0 + k : Nat) : ℚ) * eps)) := by
    intro j x hj
    have hlt : j < arr.length := by
      by_contra hc
      rw [List.getElem?_eq_none (Nat.le_of_not_lt hc)] at hj
      cases hj
    obtain ⟨k, hk⟩ := List.mem_iff_getElem?.1 ((hmem j).2 hlt)
    exact ⟨k, hk, percLoop_at eps order 0 arr k j x hnd hk hj⟩
  have hl : same.length = (present arr).count v := by
    rw [← count_present]
    exact samePercs_length v arr _ hlen.symm (fun j x hj => by
      obtain ⟨k, _, hk⟩ := hsome j x hj
      exact ⟨_, hk⟩)
  refine ⟨hl, ?_⟩
  have hsum : same.sum = eps * idxSum v (order.map (fun j => (arr[j]?).join)) 0 := by
    show (samePercs arr (percLoop eps order 0 arr) v).sum = _
    rw [samePercs_sum, sum_map_getElem?, ← order_sum v eps arr (percLoop eps order 0 arr) order 0]
    · have hz : (arr.zip (percLoop eps order 0 arr)).length = arr.length := by simp [hlen]
      rw [hz]
      exact (h.perm.map _).sum_eq.symm
    · intro k j hk hj
      exact percLoop_at eps order 0 arr k j v hnd hk hj
    · intro j hj
      rw [hlen]
      exact ⟨(hmem j).1 hj, (hmem j).1 hj⟩
  rw [hsum, hl, idxSum_sorted v _ 0 h.sorted, (order_map_perm h).count_eq, (order_map_perm h).countP_eq,
    countP_argLt, count_present]
  have hpos : 0 < (present arr).count v := by
    rw [List.count_pos_iff]; exact mem_present.2 hv
  have hne : ((present arr).count v : ℚ) ≠ 0 := by exact_mod_cast hpos.ne'
  unfold midRank
  push_cast
  field_simp
  ring

/-! ### The adjustment -/

theorem samePercs_adjust_ne {arr p : List (Option ℚ)} (hlen : arr.length = p.length) {v w : ℚ}
    (hne : v ≠ w) (c : ℚ) :
    samePercs arr ((arr.zip p).map (fun ap => if ap.1 = some v then some c else ap.2)) w
      = samePercs arr p w := by
  unfold samePercs
  induction arr generalizing p with
  | nil => rfl
  | cons a l ih =>
    cases p with
    | nil => simp at hlen
    | cons b q =>
      rw [List.zip_cons_cons, List.map_cons, List.zip_cons_cons, List.filterMap_cons,
        List.filterMap_cons, ih (by simpa using hlen)]
      by_cases e : a = some w
      · subst e
        simp [Ne.symm hne]
      · simp [e]

theorem percAdjust_get (arr : List (Option ℚ)) : ∀ (vs : List ℚ) (p : List (Option ℚ)),
    arr.length = p.length → vs.Nodup →
    (percAdjust arr vs p).length = arr.length ∧
    (∀ j : Nat, arr[j]? = some none → (percAdjust arr vs p)[j]? = p[j]?) ∧
    (∀ (j : Nat) (v : ℚ), arr[j]? = some (some v) → v ∉ vs → (percAdjust arr vs p)[j]? = p[j]?) ∧
    (∀ (j : Nat) (v : ℚ), arr[j]? = some (some v) → v ∈ vs → (percAdjust arr vs p)[j]?
      = if (samePercs arr p v).length > 1
        then some (some ((samePercs arr p v).sum / (samePercs arr p v).length)) else p[j]?)
  | [], p, hlen, _ => ⟨hlen.symm, fun _ _ => rfl, fun _ _ _ _ => rfl, fun _ _ _ h => by cases h⟩
  | w :: vs, p, hlen, hnd => by
    obtain ⟨hw, hnd'⟩ := List.nodup_cons.1 hnd
    unfold percAdjust
    dsimp only
    by_cases hg : (samePercs arr p w).length > 1
    · rw [if_pos hg]
      generalize hc : (samePercs arr p w).sum / ((samePercs arr p w).length : ℚ) = c
      have hlen' : arr.length
          = ((arr.zip p).map (fun ap => if ap.1 = some w then some c else ap.2)).length := by
        simp [hlen]
      have hget : ∀ (j : Nat) (a : Option ℚ), arr[j]? = some a →
          ((arr.zip p).map (fun ap => if ap.1 = some w then some c else ap.2))[j]?
            = if a = some w then some (some c) else p[j]? := by
        intro j a hj
        have hlt : j < arr.length := by
          by_contra hcn
          rw [List.getElem?_eq_none (Nat.le_of_not_lt hcn)] at hj
          cases hj
        have hpl : j < p.length := hlen ▸ hlt
        rw [List.getElem?_map, List.getElem?_eq_getElem (by simp; omega), List.getElem_zip,
          Option.map_some]
        rw [List.getElem?_eq_getElem hlt] at hj
        rw [Option.some.inj hj]
        dsimp only
        by_cases e : a = some w
        · rw [if_pos e, if_pos e]
        · rw [if_neg e, if_neg e, List.getElem?_eq_getElem hpl]
      obtain ⟨i1, i2, i3, i4⟩ := percAdjust_get arr vs _ hlen' hnd'
      refine ⟨i1, ?_, ?_, ?_⟩
      · intro j hj
        rw [i2 j hj, hget j _ hj, if_neg (by simp)]
      · intro j v hj hv
        have hvw : v ≠ w := fun e => hv (by simp [e])
        rw [i3 j v hj (fun hm => hv (List.mem_cons_of_mem _ hm)), hget j _ hj, if_neg (by simpa using hvw)]
      · intro j v hj hv
        by_cases e : v = w
        · subst e
          rw [i3 j v hj hw, hget j _ hj, if_pos rfl, if_pos hg, hc]
        · rw [i4 j v hj ((List.mem_cons.1 hv).resolve_left e),
            samePercs_adjust_ne hlen (fun h => e h.symm) c, hget j _ hj]
          rw [show (if some v = some w then some (some c) else p[j]?) = p[j]? from if_neg (by simpa using e)]
    · rw [if_neg hg]
      obtain ⟨i1, i2, i3, i4⟩ := percAdjust_get arr vs p hlen hnd'
      refine ⟨i1, i2, fun j v hj hv => i3 j v hj (fun hm => hv (List.mem_cons_of_mem _ hm)), ?_⟩
      intro j v hj hv
      by_cases e : v = w
      · subst e
        rw [i3 j v hj hw, if_neg hg]
      · exact i4 j v hj ((List.mem_cons.1 hv).resolve_left e)

theorem samePercs_mem {arr p : List (Option ℚ)} {j : Nat} {v y : ℚ} (h1 : arr[j]? = some (some v))
    (h2 : p[j]? = some (some y)) : y ∈ samePercs arr p v := by
  unfold samePercs
  rw [List.mem_filterMap]
  refine ⟨(some v, some y), ?_, by simp⟩
  apply List.mem_of_getElem? (i := j)
  rw [List.getElem?_zip_eq_some]
  exact ⟨h1, h2⟩

/-- The percentiles of the first object: every element which is not missing becomes its mean rank times
`1 / d`, whichever order `np.argsort` gives the equal values. -/
theorem percentiles_eq {arr : List (Option ℚ)} {order : List Nat} (h : IsArgsort arr order)
    (hd : percDenominator arr ≠ 0) :
    percentiles arr order = .ok (arr.map (Option.map
      (fun v => midRank (present arr) v * (1 / (percDenominator arr : ℚ))))) := by
  unfold percentiles
  rw [if_neg hd]
  generalize (1 / (percDenominator arr : ℚ)) = eps
  congr 1
  have hlen : arr.length = (percLoop eps order 0 arr).length := (percLoop_length _ _ _ _).symm
  obtain ⟨i1, i2, i3, i4⟩ := percAdjust_get arr (present arr).dedup _ hlen (List.nodup_dedup _)
  have hnd : order.Nodup := h.perm.nodup_iff.2 List.nodup_range
  apply List.ext_getElem?
  intro j
  rw [List.getElem?_map]
  cases hj : arr[j]? with
  | none =>
    rw [List.getElem?_eq_none (by rw [i1]; exact List.getElem?_eq_none_iff.1 hj)]
    rfl
  | some a =>
    cases a with
    | none => rw [i2 j hj, percLoop_missing eps order 0 arr j hj]; rfl
    | some v =>
      have hm : some v ∈ arr := List.mem_of_getElem? hj
      obtain ⟨hl, hmean⟩ := samePercs_mean h eps v hm
      rw [i4 j v hj (List.mem_dedup.2 (mem_present.2 hm))]
      by_cases hg : (samePercs arr (percLoop eps order 0 arr) v).length > 1
      · rw [if_pos hg, hmean]; rfl
      · rw [if_neg hg]
        have hlt : j < arr.length := by
          by_contra hc
          rw [List.getElem?_eq_none (Nat.le_of_not_lt hc)] at hj
          cases hj
        obtain ⟨k, hk⟩ := List.mem_iff_getElem?.1 (h.perm.mem_iff.2 (List.mem_range.2 hlt))
        have hp := percLoop_at eps order 0 arr k j v hnd hk hj
        have hmem := samePercs_mem hj hp
        rw [hp]
        have hone : (samePercs arr (percLoop eps order 0 arr) v).length = 1 := by
          have := List.length_pos_of_mem hmem
          omega
        obtain ⟨y, hy⟩ := List.length_eq_one_iff.1 hone
        rw [hy] at hmem hmean
        rw [List.mem_singleton] at hmem
        rw [hmem]
        simp only [List.sum_cons, List.sum_nil, List.length_cons, List.length_nil] at hmean
        rw [Option.map_some, Option.map_some, ← hmean]
        simp

/-! ### The second object -/

theorem searchSorted_spec (val : ℚ) : ∀ (s : List (Option ℚ)),
    s.Pairwise (fun a b => nanLe a b = true) → ∀ (k : Nat) (x : Option ℚ), s[k]? = some x →
    (k < searchSorted s val ↔ argLt val x = true)
  | [], _, k, x, h => by simp at h
  | a :: l, hs, k, x, h => by
    have hs' := List.pairwise_cons.1 hs
    have hdef : ∀ s : List (Option ℚ), searchSorted s val = s.countP (argLt val) := fun _ => rfl
    rw [hdef]
    by_cases ha : argLt val a = true
    · rw [List.countP_cons_of_pos ha]
      cases k with
      | zero =>
        rw [List.getElem?_cons_zero] at h
        obtain rfl := Option.some.inj h
        simp [ha]
      | succ k =>
        rw [List.getElem?_cons_succ] at h
        have := searchSorted_spec val l hs'.2 k x h
        rw [hdef] at this
        rw [← this]
        omega
    · have hf : argLt val a = false := by simpa using ha
      have h0 := sorted_rest hs hf
      rw [List.countP_cons_of_neg ha, h0]
      constructor
      · intro hk; omega
      · intro hx
        exfalso
        have hm : x ∈ a :: l := List.mem_of_getElem? h
        rcases List.mem_cons.1 hm with rfl | hm
        · exact ha hx
        · rw [List.countP_eq_zero] at h0
          exact h0 x hm hx

theorem midRank_mono {l : List ℚ} {x y : ℚ} (hx : x ∈ l) (hy : y ∈ l) (hxy : x < y) :
    midRank l x < midRank l y := by
  have h : l.countP (fun z => decide (z < x)) + l.count x ≤ l.countP (fun z => decide (z < y)) := by
    clear hx hy
    induction l with
    | nil => simp
    | cons a l ih =>
      rw [List.countP_cons, List.countP_cons, List.count_cons]
      by_cases e : a = x
      · subst e
        simp only [lt_irrefl, decide_false, beq_self_eq_true, hxy, decide_true]
        simp only [if_true, Bool.false_eq_true, if_false]
        omega
      · by_cases e2 : a < x
        · have : a < y := lt_trans e2 hxy
          simp only [e2, this, decide_true, if_true, beq_iff_eq, e, if_false]
          omega
        · simp only [e2, beq_iff_eq, e, if_false, decide_false, Bool.false_eq_true]
          split <;> omega
  have h1 : 0 < l.count x := List.count_pos_iff.2 hx
  have h2 : 0 < l.count y := List.count_pos_iff.2 hy
  unfold midRank
  have h' : (l.countP (fun z => decide (z < x)) : ℚ) + (l.count x : ℚ)
      ≤ l.countP (fun z => decide (z < y)) := by exact_mod_cast h
  have h1' : (1 : ℚ) ≤ l.count x := by exact_mod_cast h1
  have h2' : (1 : ℚ) ≤ l.count y := by exact_mod_cast h2
  linarith

theorem midRank_nonneg {l : List ℚ} {x : ℚ} (hx : x ∈ l) : 0 ≤ midRank l x := by
  have h1 : 0 < l.count x := List.count_pos_iff.2 hx
  have h1' : (1 : ℚ) ≤ l.count x := by exact_mod_cast h1
  have : (0 : ℚ) ≤ l.countP (fun z => decide (z < x)) := by exact_mod_cast Nat.zero_le _
  unfold midRank
  linarith

theorem midRank_le {l : List ℚ} {x : ℚ} (hx : x ∈ l) : midRank l x ≤ (l.length : ℚ) - 1 := by
  have h : l.countP (fun z => decide (z < x)) + l.count x ≤ l.length := by
    clear hx
    induction l with
    | nil => simp
    | cons a l ih =>
      rw [List.countP_cons, List.count_cons, List.length_cons]
      by_cases e : a = x
      · subst e; simp; omega
      · simp only [beq_iff_eq, e, if_false]
        split <;> omega
  have h1 : 0 < l.count x := List.count_pos_iff.2 hx
  have h1' : (1 : ℚ) ≤ l.count x := by exact_mod_cast h1
  have h' : (l.countP (fun z => decide (z < x)) : ℚ) + (l.count x : ℚ) ≤ l.length := by exact_mod_cast h
  unfold midRank
  linarith

theorem interp_between {arr : List (Option ℚ)} {order : List Nat} (h : IsArgsort arr order) {mn mx val : ℚ}
    (hmn : IsMin (present arr) mn) (hmx : IsMax (present arr) mx) (h1 : mn < val) (h2 : val < mx)
    (P : ℚ → ℚ) :
    ∃ lv rv, lv ∈ present arr ∧ rv ∈ present arr ∧ lv < val ∧ val ≤ rv ∧
      (∀ w ∈ present arr, w ≤ lv ∨ rv ≤ w) ∧
      interpPercentile mn mx (order.map (fun i => (arr[i]?).join))
        (order.map (fun i => ((arr.map (Option.map P))[i]?).join)) val
        = some (P lv + (P rv - P lv) * ((val - lv) / (rv - lv))) := by
  have hp := order_map_perm h
  have hpercs : (order.map (fun i => ((arr.map (Option.map P))[i]?).join))
      = (order.map (fun i => (arr[i]?).join)).map (Option.map P) := by
    rw [List.map_map]
    apply List.map_congr_left
    intro i _
    simp only [List.getElem?_map, Function.comp]
    cases arr[i]? with
    | none => rfl
    | some a => rfl
  rw [hpercs]
  have hs := h.sorted
  generalize (order.map (fun i => (arr[i]?).join)) = s at hp hs
  have hspec := searchSorted_spec val s hs
  have hmem : ∀ w, w ∈ present arr ↔ some w ∈ s := fun w => by rw [mem_present, hp.mem_iff]
  obtain ⟨km, hkm⟩ := List.mem_iff_getElem?.1 ((hmem mn).1 hmn.1)
  obtain ⟨kx, hkx⟩ := List.mem_iff_getElem?.1 ((hmem mx).1 hmx.1)
  have hpos : km < searchSorted s val := (hspec km _ hkm).2 (by rw [argLt_some]; simpa using h1)
  have hlt : searchSorted s val ≤ kx := by
    by_contra hc
    have := (hspec kx _ hkx).1 (by omega)
    rw [argLt_some] at this
    simp only [decide_eq_true_eq] at this
    linarith
  have hkxl : kx < s.length := by
    by_contra hc
    rw [List.getElem?_eq_none (Nat.le_of_not_lt hc)] at hkx
    cases hkx
  generalize hidx : searchSorted s val = idx at *
  have hil : idx < s.length := by omega
  have hpl : idx - 1 < s.length := by omega
  have hL := (hspec (idx - 1) s[idx - 1] (List.getElem?_eq_getElem hpl)).1 (by omega)
  have hR : argLt val s[idx] = false := by
    have := mt (hspec idx s[idx] (List.getElem?_eq_getElem hil)).2 (by omega)
    simpa using this
  obtain ⟨lv, hlv⟩ : ∃ lv, s[idx - 1] = some lv := by
    cases hx : s[idx - 1] with
    | none => rw [hx] at hL; simp [argLt_none] at hL
    | some lv => exact ⟨lv, rfl⟩
  have hmono : ∀ (a b : Nat) (ha : a < s.length) (hb : b < s.length), a ≤ b → nanLe s[a] s[b] = true := by
    intro a b ha hb hab
    rcases Nat.lt_or_eq_of_le hab with hlt' | rfl
    · exact List.pairwise_iff_getElem.1 hs a b ha hb hlt'
    · cases s[a] with
      | none => rfl
      | some y => simp [nanLe]
  have hkxe : s[kx] = some mx := by
    rw [List.getElem?_eq_getElem hkxl] at hkx
    exact Option.some.inj hkx
  obtain ⟨rv, hrv⟩ : ∃ rv, s[idx] = some rv := by
    have := hmono idx kx hil hkxl hlt
    rw [hkxe] at this
    cases hx : s[idx] with
    | none => rw [hx] at this; simp [nanLe] at this
    | some rv => exact ⟨rv, rfl⟩
  have hlv' : lv < val := by rw [hlv, argLt_some] at hL; simpa using hL
  have hrv' : val ≤ rv := by rw [hrv, argLt_some] at hR; simpa using hR
  refine ⟨lv, rv, (hmem lv).2 (hlv ▸ List.getElem_mem hpl), (hmem rv).2 (hrv ▸ List.getElem_mem hil),
    hlv', hrv', ?_, ?_⟩
  · intro w hw
    obtain ⟨k, hk⟩ := List.mem_iff_getElem?.1 ((hmem w).1 hw)
    have hkl : k < s.length := by
      by_contra hc
      rw [List.getElem?_eq_none (Nat.le_of_not_lt hc)] at hk
      cases hk
    have hke : s[k] = some w := by
      rw [List.getElem?_eq_getElem hkl] at hk
      exact Option.some.inj hk
    by_cases hki : k < idx
    · left
      have := hmono k (idx - 1) hkl hpl (by omega)
      rw [hke, hlv] at this
      simpa [nanLe] using this
    · right
      have := hmono idx k hil hkl (by omega)
      rw [hke, hrv] at this
      simpa [nanLe] using this
  · unfold interpPercentile
    rw [if_neg (by rintro ⟨e, _⟩; linarith), if_neg (by linarith), if_neg (by linarith)]
    dsimp only
    rw [hidx, List.getElem?_map, List.getElem?_map, List.getElem?_eq_getElem hpl,
      List.getElem?_eq_getElem hil, hlv, hrv]
    simp only [Option.map_some, Option.join_some]
    by_cases e : val = rv
    · rw [if_pos e]
      subst e
      rw [div_self (by linarith [hlv'] |> fun (h : 0 < val - lv) => h.ne')]
      congr 1; ring
    · rw [if_neg e]

/-- The number of missing values. -/
def missingCount (v : List (Option ℚ)) : Nat := v.countP Option.isNone

theorem present_length (v : List (Option ℚ)) : (present v).length + missingCount v = v.length := by
  unfold present missingCount
  induction v with
  | nil => rfl
  | cons a l ih =>
    cases a with
    | none => simp only [List.filterMap_cons, id, List.countP_cons, List.length_cons] at *; simp; omega
    | some x => simp only [List.filterMap_cons, id, List.countP_cons, List.length_cons] at *; simp; omega

theorem percDenominator_eq (v : List (Option ℚ)) :
    percDenominator v = (v.length : Int) - (if missingCount v = 0 then 1 else 2) := by
  have : v.any Option.isNone = true ↔ missingCount v ≠ 0 := by
    unfold missingCount
    rw [Ne, List.countP_eq_zero]
    simp [List.any_eq_true]
  unfold percDenominator
  by_cases h : missingCount v = 0
  · rw [if_neg (by rw [this]; simpa using h), if_pos h]
  · rw [if_pos (this.2 h), if_neg h]

/-- C59. `percentileNormalize` with at most one missing value and at least two present ones: in the
first object each value becomes `(k - 1) / (n - 1)`, with `k` its rank (the mean of the ranks of the
equal values) and `n` the number of values, for any order in which `np.argsort` leaves equal values;
missing values stay missing.  In the second object a value below the minimum (above the maximum)
becomes 0 (1), and a value strictly between them is interpolated linearly between its neighbours
`lv < val ≤ rv` among the values of the first object. -/
theorem C59_percentile_partial {v1 : List (Option ℚ)} {order : List Nat} (h : IsArgsort v1 order)
    (hm : missingCount v1 ≤ 1) (hn : 2 ≤ (present v1).length) (v2 : List (Option ℚ)) :
    ∃ (mn mx : ℚ) (g : ℚ → ℚ), IsMin (present v1) mn ∧ IsMax (present v1) mx ∧
      percentileNormalize v1 v2 order
        = .ok (v1.map (Option.map (percentileOf (present v1))), v2.map (Option.map g)) ∧
      (∀ x, x < mn → g x = 0) ∧ (∀ x, mx < x → g x = 1) ∧
      (∀ x, mn < x → x < mx → ∃ lv rv, lv ∈ present v1 ∧ rv ∈ present v1 ∧ lv < x ∧ x ≤ rv ∧
        (∀ w ∈ present v1, w ≤ lv ∨ rv ≤ w) ∧
        g x = percentileOf (present v1) lv
          + (percentileOf (present v1) rv - percentileOf (present v1) lv) * ((x - lv) / (rv - lv))) ∧
      (∀ x ∈ present v1, mn < x → x < mx → g x = percentileOf (present v1) x) ∧
      (mn = mx → g mn = 1 / 2) := by
  have hne : present v1 ≠ [] := by intro e; rw [e] at hn; simp at hn
  obtain ⟨mn, hmn, hmn'⟩ := nanMin_spec hne
  obtain ⟨mx, hmx, hmx'⟩ := nanMax_spec hne
  have hd : percDenominator v1 = ((present v1).length : Int) - 1 := by
    rw [percDenominator_eq]
    have := present_length v1
    split <;> omega
  have hd0 : percDenominator v1 ≠ 0 := by rw [hd]; omega
  have hpe := percentiles_eq h hd0
  have hfun : (fun v => midRank (present v1) v * (1 / (percDenominator v1 : ℚ))) = percentileOf (present v1) := by
    funext v
    unfold percentileOf
    rw [hd]
    push_cast
    rw [mul_one_div]
  rw [hfun] at hpe
  have hib := fun x (a : mn < x) (b : x < mx) => interp_between h hmn' hmx' a b (percentileOf (present v1))
  have htot : ∀ x, ∃ y, interpPercentile mn mx (order.map (fun i => (v1[i]?).join))
      (order.map (fun i => ((v1.map (Option.map (percentileOf (present v1))))[i]?).join)) x = some y := by
    intro x
    by_cases a : mn < x
    · by_cases b : x < mx
      · obtain ⟨lv, rv, _, _, _, _, _, e⟩ := hib x a b
        exact ⟨_, e⟩
      · unfold interpPercentile
        rw [if_neg (by rintro ⟨e, _⟩; linarith), if_neg (not_le.2 a), if_pos (not_lt.1 b)]
        exact ⟨1, rfl⟩
    · unfold interpPercentile
      by_cases c : x = mn ∧ mn = mx
      · rw [if_pos c]; exact ⟨_, rfl⟩
      · rw [if_neg c, if_pos (not_lt.1 a)]; exact ⟨_, rfl⟩
  obtain ⟨g, hg⟩ := Classical.axiomOfChoice htot
  refine ⟨mn, mx, g, hmn', hmx', ?_, ?_, ?_, ?_, ?_, ?_⟩
  · unfold percentileNormalize
    simp only [hpe, bind, Except.bind, hmn, hmx, pure, Except.pure]
    congr 2
    apply List.map_congr_left
    intro a _
    cases a with
    | none => rfl
    | some x => exact hg x
  · intro x hx
    have := hg x
    unfold interpPercentile at this
    rw [if_neg (by rintro ⟨e, _⟩; linarith), if_pos hx.le] at this
    exact (Option.some.inj this).symm
  · intro x hx
    have hle : mn ≤ mx := hmn'.2 mx hmx'.1
    have := hg x
    unfold interpPercentile at this
    rw [if_neg (by rintro ⟨e, _⟩; linarith), if_neg (by linarith), if_pos hx.le] at this
    exact (Option.some.inj this).symm
  · intro x a b
    obtain ⟨lv, rv, h1, h2, h3, h4, h5, e⟩ := hib x a b
    rw [hg x] at e
    exact ⟨lv, rv, h1, h2, h3, h4, h5, Option.some.inj e⟩
  · intro x hx a b
    obtain ⟨lv, rv, h1, h2, h3, h4, h5, e⟩ := hib x a b
    rw [hg x] at e
    have : x = rv := by
      rcases h5 x hx with h6 | h6
      · linarith
      · exact le_antisymm h4 h6
    subst this
    rw [Option.some.inj e, div_self (by linarith [h3] |> fun (h : 0 < x - lv) => h.ne')]
    ring
  · intro e
    have := hg mn
    unfold interpPercentile at this
    rw [if_pos ⟨rfl, e⟩] at this
    exact (Option.some.inj this).symm

/-- C59. The percentiles lie between 0 and 1, equal values have equal percentiles (they are a function
of the value) and a greater value has a greater percentile. -/
theorem C59_percentile_order {l : List ℚ} (hn : 2 ≤ l.length) :
    (∀ x ∈ l, 0 ≤ percentileOf l x ∧ percentileOf l x ≤ 1) ∧
    (∀ x ∈ l, ∀ y ∈ l, x < y → percentileOf l x < percentileOf l y) ∧
    (∀ m, IsMin l m → l.count m = 1 → percentileOf l m = 0) ∧
    (∀ m, IsMax l m → l.count m = 1 → percentileOf l m = 1) := by
  have hd : (0 : ℚ) < (l.length : ℚ) - 1 := by
    have : (2 : ℚ) ≤ l.length := by exact_mod_cast hn
    linarith
  refine ⟨?_, ?_, ?_, ?_⟩
  · intro x hx
    unfold percentileOf
    exact ⟨div_nonneg (midRank_nonneg hx) hd.le, (div_le_one hd).2 (midRank_le hx)⟩
  · intro x hx y hy hxy
    exact div_lt_div_of_pos_right (midRank_mono hx hy hxy) hd
  · intro m hm hc
    unfold percentileOf midRank
    have : l.countP (fun x => decide (x < m)) = 0 := by
      rw [List.countP_eq_zero]
      intro a ha
      simpa using hm.2 a ha
    rw [this, hc]; simp
  · intro m hm hc
    unfold percentileOf midRank
    have : l.countP (fun x => decide (x < m)) + l.count m = l.length := by
      have hle := hm.2
      clear hm hc hd hn
      induction l with
      | nil => simp
      | cons a l ih =>
        have ih := ih (fun v hv => hle v (List.mem_cons_of_mem _ hv))
        rw [List.countP_cons, List.count_cons, List.length_cons]
        rcases lt_or_eq_of_le (hle a (by simp)) with h | h
        · simp only [h, decide_true, if_true, beq_iff_eq, h.ne, if_false]; omega
        · subst h; simp; omega
    have h' : (l.countP (fun x => decide (x < m)) : ℚ) = (l.length : ℚ) - 1 := by
      have h2 : (l.countP (fun x => decide (x < m)) : ℚ) + (l.count m : ℚ) = l.length := by
        exact_mod_cast this
      rw [hc] at h2
      push_cast at h2
      linarith
    rw [h', hc]
    simp [hd.ne']

/-- C59, violated. With two or more missing values every percentile is too small: `n - 2` counts one
missing value only, so that even the maximum, occurring once, gets a percentile below 1. -/
theorem C59_percentile_missing_violated {v1 : List (Option ℚ)} {order : List Nat} (h : IsArgsort v1 order)
    (hm : 2 ≤ missingCount v1) {mx : ℚ} (hmx : IsMax (present v1) mx) :
    ∃ p, percentiles v1 order = .ok (v1.map (Option.map p)) ∧ p mx < 1 ∧
      ∀ x ∈ present v1, 0 < p x → p x < percentileOf (present v1) x ∨ (present v1).length = 1 := by
  have hpl := present_length v1
  have hpos : 0 < (present v1).length := List.length_pos_of_mem hmx.1
  have hd : percDenominator v1 = (v1.length : Int) - 2 := by
    rw [percDenominator_eq, if_neg (by omega)]
  have hd0 : percDenominator v1 ≠ 0 := by rw [hd]; omega
  have hdq : ((present v1).length : ℚ) ≤ (percDenominator v1 : ℚ) := by
    rw [hd]
    have : ((present v1).length : Int) ≤ (v1.length : Int) - 2 := by omega
    exact_mod_cast this
  have hpq : (1 : ℚ) ≤ (present v1).length := by exact_mod_cast hpos
  refine ⟨_, percentiles_eq h hd0, ?_, ?_⟩
  · have := midRank_le hmx.1
    rw [mul_one_div, div_lt_one (by linarith)]
    linarith
  · intro x hx h0
    by_cases h1 : (present v1).length = 1
    · exact Or.inr h1
    · left
      have h2 : (2 : ℚ) ≤ (present v1).length := by
        have : 2 ≤ (present v1).length := by omega
        exact_mod_cast this
      rw [mul_one_div] at h0 ⊢
      unfold percentileOf
      have hr : 0 < midRank (present v1) x := by
        by_contra hc
        have := div_nonpos_of_nonpos_of_nonneg (not_lt.1 hc) (show (0 : ℚ) ≤ percDenominator v1 by linarith)
        linarith
      apply div_lt_div_of_pos_left hr (by linarith)
      linarith

/-- C59, violated. A single value, without or with one missing value, raises a `ZeroDivisionError`. -/
theorem C59_percentile_single_violated {v1 v2 : List (Option ℚ)} {order : List Nat}
    (h1 : (present v1).length = 1) (hm : missingCount v1 ≤ 1) :
    percentileNormalize v1 v2 order = .error .ZeroDivisionError := by
  have hpl := present_length v1
  have hd : percDenominator v1 = 0 := by
    rw [percDenominator_eq]
    split <;> omega
  unfold percentileNormalize percentiles
  rw [if_pos hd]
  rfl

/-- C59, violated. The minimum of the first object, if it occurs several times, has a positive
percentile there and the percentile 0 in the second object, although it is the same value. -/
theorem C59_percentile_repeated_min_violated {v1 : List (Option ℚ)} {order : List Nat}
    (h : IsArgsort v1 order) (hm : missingCount v1 ≤ 1) {mn mx : ℚ} (h1 : IsMin (present v1) mn)
    (h2 : IsMax (present v1) mx) (hlt : mn < mx) (hc : 2 ≤ (present v1).count mn) :
    ∃ p : ℚ → ℚ, percentileNormalize v1 [some mn] order = .ok (v1.map (Option.map p), [some 0]) ∧ 0 < p mn := by
  have hne : present v1 ≠ [] := by intro e; rw [e] at hc; simp at hc
  have hlen : 2 ≤ (present v1).length := le_trans hc List.count_le_length
  obtain ⟨mn', e1, e2⟩ := nanMin_spec hne
  obtain ⟨mx', e3, e4⟩ := nanMax_spec hne
  obtain rfl : mn' = mn := le_antisymm (e2.2 _ h1.1) (h1.2 _ e2.1)
  obtain rfl : mx' = mx := le_antisymm (h2.2 _ e4.1) (e4.2 _ h2.1)
  have hpl := present_length v1
  have hd : percDenominator v1 = ((present v1).length : Int) - 1 := by
    rw [percDenominator_eq]
    split <;> omega
  have hd0 : percDenominator v1 ≠ 0 := by rw [hd]; omega
  refine ⟨fun v => midRank (present v1) v * (1 / (percDenominator v1 : ℚ)), ?_, ?_⟩
  · unfold percentileNormalize
    simp only [percentiles_eq h hd0, bind, Except.bind, e1, e3, pure, Except.pure]
    congr 2
    simp only [List.map_cons, List.map_nil, Option.bind_some]
    congr 1
    unfold interpPercentile
    rw [if_neg (by rintro ⟨_, e⟩; linarith), if_pos (le_refl _)]
  · have hdp : (0 : ℚ) < percDenominator v1 := by
      rw [hd]
      have : (0 : Int) < (present v1).length - 1 := by omega
      exact_mod_cast this
    have hr : 0 < midRank (present v1) mn' := by
      unfold midRank
      have a : (2 : ℚ) ≤ (present v1).count mn' := by exact_mod_cast hc
      have b : (0 : ℚ) ≤ (present v1).countP (fun z => decide (z < mn')) := by exact_mod_cast Nat.zero_le _
      linarith
    dsimp only
    rw [mul_one_div]
    exact div_pos hr hdp

/-- The example of the documentation: `[1, 2, 4, 4, 5]`, with either order of the two fours. -/
example : IsArgsort [some 1, some 2, some 4, some 4, some 5] [0, 1, 3, 2, 4] :=
  ⟨by decide, by decide +kernel⟩
example : percentileNormalize [some 1, some 2, some 4, some 4, some 5] [some 3, some 2, some 6, none] [0, 1, 3, 2, 4]
    = .ok ([some 0, some (1/4), some (5/8), some (5/8), some 1], [some (7/16), some (1/4), some 1, none]) := by
  decide +kernel
/-- One and two missing values: the maximum becomes 1, but 2/3 with two. -/
example : percentiles [some 3, none, some 1, some 2] [2, 3, 0, 1] = .ok [some 1, none, some 0, some (1/2)] := by
  decide +kernel
example : percentiles [some 3, none, some 1, some 2, none] [2, 3, 0, 1, 4]
    = .ok [some (2/3), none, some 0, some (1/3), none] := by decide +kernel
/-- A repeated minimum. -/
example : percentileNormalize [some 1, some 1, some 2] [some 1] [0, 1, 2]
    = .ok ([some (1/4), some (1/4), some 1], [some 0]) := by decide +kernel
example : rangeNormalize 0 1 [some 2, some 6, none, some 4] [some 8, none]
    = ([some 0, some 1, none, some (1/2)], [some (3/2), none]) := by decide +kernel
example : meanNormalize [some 2, some 6, none, some 4] [some 8, none]
    = ([some (-2), some 2, none, some 0], [some 4, none]) := by decide +kernel

end Nimble
