import Verif.Model.Fill
import Mathlib.Tactic.Linarith

/-!
# C28: the fill functions on one vector
-/

namespace Nimble
namespace Fill
variable {V : Type}

/-! ## Specification -/

/-- Unmatched elements are unchanged and the length is kept. -/
structure KeepsUnmatched (vec : List V) (toFill : List Bool) (out : List V) : Prop where
  length : out.length = vec.length
  keep : ∀ i : Nat, toFill[i]? = some false → out[i]? = vec[i]?

/-- `j` is the last unmatched position before `i`. -/
structure LastBefore (toFill : List Bool) (i j : Nat) : Prop where
  lt : j < i
  un : toFill[j]? = some false
  between : ∀ k : Nat, j < k → k < i → toFill[k]? = some true

/-- `j` is the first unmatched position after `i`. -/
structure FirstAfter (toFill : List Bool) (i j : Nat) : Prop where
  lt : i < j
  un : toFill[j]? = some false
  between : ∀ k : Nat, i < k → k < j → toFill[k]? = some true

/-! ## constant -/

/-- **C28** (constant): unmatched elements stay, every matched element becomes the constant. -/
theorem C28_constant (c : V) (vec : List V) (toFill : List Bool) (h : toFill.length = vec.length) :
    KeepsUnmatched vec toFill (constant c vec toFill) ∧
    ∀ i : Nat, toFill[i]? = some true → (constant c vec toFill)[i]? = some c := by
  refine ⟨⟨by simp [constant, h], ?_⟩, ?_⟩
  · intro i hi
    have hlt : i < toFill.length := (List.getElem?_eq_some_iff.1 hi).1
    have hv : vec[i]? = some vec[i] := List.getElem?_eq_getElem (by omega)
    have hz : (vec.zip toFill)[i]? = some (vec[i], false) := by
      rw [List.getElem?_zip_eq_some]; exact ⟨hv, hi⟩
    simp [constant, List.getElem?_map, hz]
  · intro i hi
    have hlt : i < toFill.length := (List.getElem?_eq_some_iff.1 hi).1
    have hv : vec[i]? = some vec[i] := List.getElem?_eq_getElem (by omega)
    have hz : (vec.zip toFill)[i]? = some (vec[i], true) := by
      rw [List.getElem?_zip_eq_some]; exact ⟨hv, hi⟩
    simp [constant, List.getElem?_map, hz]

/-! ## forward fill -/

/-- Values written by the forward filler once the last value written is `x`. -/
private def scan (x : V) : List (V × Bool) → List V
  | [] => []
  | p :: rest => if p.2 then x :: scan x rest else p.1 :: scan p.1 rest

private theorem forwardLoop_eq (ret : List V) (x : V) (ps : List (V × Bool)) :
    forwardLoop (ret ++ [x]) ps = .ok (ret ++ [x] ++ scan x ps) := by
  induction ps generalizing ret x with
  | nil => simp [forwardLoop, scan]
  | cons p ps ih =>
    cases hp : p.2 with
    | true =>
      have : repeatLast (ret ++ [x]) = .ok (ret ++ [x] ++ [x]) := by simp [repeatLast]
      simp only [forwardLoop, hp, if_true, this, scan]
      show forwardLoop (ret ++ [x] ++ [x]) ps = _
      rw [ih]; simp
    | false =>
      simp only [forwardLoop, hp, scan, Bool.false_eq_true, if_false]
      rw [ih]; simp

private theorem scan_spec (x : V) (ps : List (V × Bool)) :
    (scan x ps).length = ps.length ∧
    ∀ (i : Nat) (v : V) (b : Bool), ps[i]? = some (v, b) →
      (b = false → (scan x ps)[i]? = some v) ∧
      (b = true →
        (∃ (j : Nat) (w : V), j < i ∧ ps[j]? = some (w, false) ∧ (scan x ps)[i]? = some w ∧
          ∀ k : Nat, j < k → k < i → ∃ u, ps[k]? = some (u, true)) ∨
        ((scan x ps)[i]? = some x ∧ ∀ k : Nat, k < i → ∃ u, ps[k]? = some (u, true))) := by
  induction ps generalizing x with
  | nil => simp [scan]
  | cons p ps ih =>
    obtain ⟨pv, pb⟩ := p
    cases pb with
    | true =>
      have hs : scan x ((pv, true) :: ps) = x :: scan x ps := by simp [scan]
      rw [hs]
      refine ⟨by simp [(ih x).1], ?_⟩
      intro i v b hi
      cases i with
      | zero =>
        simp at hi
        obtain ⟨h1, h2⟩ := hi
        subst h1; subst h2
        exact ⟨by simp, fun _ => .inr ⟨by simp, by simp⟩⟩
      | succ i =>
        simp at hi
        obtain ⟨h1, h2⟩ := (ih x).2 i v b hi
        refine ⟨by simpa using h1, fun hb => ?_⟩
        rcases h2 hb with ⟨j, w, hj, hw, ho, hk⟩ | ⟨ho, hk⟩
        · refine .inl ⟨j + 1, w, by omega, by simpa using hw, by simpa using ho, ?_⟩
          intro k h3 h4
          obtain ⟨k', rfl⟩ : ∃ k', k = k' + 1 := ⟨k - 1, by omega⟩
          simpa using hk k' (by omega) (by omega)
        · refine .inr ⟨by simpa using ho, ?_⟩
          intro k h4
          cases k with
          | zero => exact ⟨pv, by simp⟩
          | succ k => simpa using hk k (by omega)
    | false =>
      have hs : scan x ((pv, false) :: ps) = pv :: scan pv ps := by simp [scan]
      rw [hs]
      refine ⟨by simp [(ih pv).1], ?_⟩
      intro i v b hi
      cases i with
      | zero =>
        simp at hi
        obtain ⟨h1, h2⟩ := hi
        subst h1; subst h2
        exact ⟨by simp, by simp⟩
      | succ i =>
        simp at hi
        obtain ⟨h1, h2⟩ := (ih pv).2 i v b hi
        refine ⟨by simpa using h1, fun hb => ?_⟩
        rcases h2 hb with ⟨j, w, hj, hw, ho, hk⟩ | ⟨ho, hk⟩
        · refine .inl ⟨j + 1, w, by omega, by simpa using hw, by simpa using ho, ?_⟩
          intro k h3 h4
          obtain ⟨k', rfl⟩ : ∃ k', k = k' + 1 := ⟨k - 1, by omega⟩
          simpa using hk k' (by omega) (by omega)
        · refine .inl ⟨0, pv, by omega, by simp, by simpa using ho, ?_⟩
          intro k h3 h4
          obtain ⟨k', rfl⟩ : ∃ k', k = k' + 1 := ⟨k - 1, by omega⟩
          simpa using hk k' (by omega)

/-- What forward fill must produce: unmatched elements stay, every matched element becomes the
nearest unmatched value before it. -/
structure ForwardFilled (vec : List V) (toFill : List Bool) (out : List V) : Prop
    extends KeepsUnmatched vec toFill out where
  fill : ∀ i : Nat, toFill[i]? = some true → ∃ j, LastBefore toFill i j ∧ out[i]? = vec[j]?

/-- **C28** (forward fill): refused exactly when the first element matches; otherwise every matched
element becomes the nearest unmatched value before it and nothing else changes. -/
theorem C28_forwardFill (vec : List V) (toFill : List Bool) (h : toFill.length = vec.length)
    (hne : vec ≠ []) :
    (toFill[0]? = some true → forwardFill vec toFill = .error .InvalidArgumentValue) ∧
    (toFill[0]? = some false → ∃ out, forwardFill vec toFill = .ok out ∧
      ForwardFilled vec toFill out) := by
  cases vec with
  | nil => exact absurd rfl hne
  | cons v vec =>
    cases toFill with
    | nil => simp at h
    | cons b toFill =>
      simp at h
      cases b with
      | true => exact ⟨fun _ => by simp [forwardFill], by simp⟩
      | false =>
        refine ⟨by simp, fun _ => ⟨v :: scan v (vec.zip toFill), ?_, ?_⟩⟩
        · simp only [forwardFill, List.head?_cons, List.zip_cons_cons, forwardLoop]
          exact forwardLoop_eq [] v _
        · have hsp := scan_spec v (vec.zip toFill)
          have hzip : ∀ (k : Nat) (b : Bool), toFill[k]? = some b →
              ∃ w, vec[k]? = some w ∧ (vec.zip toFill)[k]? = some (w, b) := by
            intro k b hk
            have hlt : k < toFill.length := (List.getElem?_eq_some_iff.1 hk).1
            have hv : vec[k]? = some vec[k] := List.getElem?_eq_getElem (by omega)
            exact ⟨_, hv, by rw [List.getElem?_zip_eq_some]; exact ⟨hv, hk⟩⟩
          have hunzip : ∀ (k : Nat) (w : V) (b : Bool), (vec.zip toFill)[k]? = some (w, b) →
              vec[k]? = some w ∧ toFill[k]? = some b := by
            intro k w b hk
            rw [List.getElem?_zip_eq_some] at hk; exact hk
          refine ⟨⟨by simp [hsp.1, h], ?_⟩, ?_⟩
          · intro i hi
            cases i with
            | zero => simp
            | succ i =>
              simp at hi
              obtain ⟨w, hw, hz⟩ := hzip i false hi
              simp [hw, (hsp.2 i w false hz).1 rfl]
          · intro i hi
            cases i with
            | zero => simp at hi
            | succ i =>
              simp at hi
              obtain ⟨w, hw, hz⟩ := hzip i true hi
              rcases (hsp.2 i w true hz).2 rfl with ⟨j, u, hj, hu, ho, hk⟩ | ⟨ho, hk⟩
              · refine ⟨j + 1, ⟨by omega, by simpa using (hunzip j u false hu).2, ?_⟩, ?_⟩
                · intro k h3 h4
                  obtain ⟨k', rfl⟩ : ∃ k', k = k' + 1 := ⟨k - 1, by omega⟩
                  obtain ⟨u', hu'⟩ := hk k' (by omega) (by omega)
                  simpa using (hunzip k' u' true hu').2
                · simp [ho, (hunzip j u false hu).1]
              · refine ⟨0, ⟨by omega, by simp, ?_⟩, by simp [ho]⟩
                intro k h3 h4
                obtain ⟨k', rfl⟩ : ∃ k', k = k' + 1 := ⟨k - 1, by omega⟩
                obtain ⟨u', hu'⟩ := hk k' (by omega)
                simpa using (hunzip k' u' true hu').2

example : forwardFill [10, 0, 0, 40, 0] [false, true, true, false, true] =
    .ok [10, 10, 10, 40, 40] := rfl

/-! ## backward fill -/

private theorem backwardLoop_eq (ret : List V) (ps : List (V × Bool)) :
    backwardLoop ret.reverse ps = (forwardLoop ret ps).map List.reverse := by
  induction ps generalizing ret with
  | nil => simp [forwardLoop, backwardLoop, Except.map]
  | cons p ps ih =>
    cases hp : p.2 with
    | true =>
      simp only [forwardLoop, backwardLoop, hp, if_true]
      cases hr : ret.getLast? with
      | none =>
        have h1 : repeatLast ret = .error .IndexError := by simp [repeatLast, hr]
        have h2 : repeatFirst ret.reverse = .error .IndexError := by
          simp [repeatFirst, List.head?_reverse, hr]
        rw [h1, h2]; rfl
      | some x =>
        have h1 : repeatLast ret = .ok (ret ++ [x]) := by simp [repeatLast, hr]
        have h2 : repeatFirst ret.reverse = .ok (x :: ret.reverse) := by
          simp [repeatFirst, List.head?_reverse, hr]
        rw [h1, h2]
        show backwardLoop (x :: ret.reverse) ps = (forwardLoop (ret ++ [x]) ps).map _
        rw [← ih]; simp
    | false =>
      simp only [forwardLoop, backwardLoop, hp, Bool.false_eq_true, if_false]
      rw [← ih]; simp

theorem backwardFill_eq (vec : List V) (toFill : List Bool) :
    backwardFill vec toFill = (forwardFill vec.reverse toFill.reverse).map List.reverse := by
  unfold backwardFill forwardFill
  rw [List.head?_reverse]
  cases h : toFill.getLast? with
  | none => rfl
  | some b =>
    cases b with
    | true => rfl
    | false => exact backwardLoop_eq [] _

/-- What backward fill must produce. -/
structure BackwardFilled (vec : List V) (toFill : List Bool) (out : List V) : Prop
    extends KeepsUnmatched vec toFill out where
  fill : ∀ i : Nat, toFill[i]? = some true → ∃ j, FirstAfter toFill i j ∧ out[i]? = vec[j]?

/-- **C28** (backward fill): refused exactly when the last element matches; otherwise every matched
element becomes the nearest unmatched value after it and nothing else changes. -/
theorem C28_backwardFill (vec : List V) (toFill : List Bool) (h : toFill.length = vec.length)
    (hne : vec ≠ []) :
    (toFill.getLast? = some true → backwardFill vec toFill = .error .InvalidArgumentValue) ∧
    (toFill.getLast? = some false → ∃ out, backwardFill vec toFill = .ok out ∧
      BackwardFilled vec toFill out) := by
  have hl : toFill.reverse.length = vec.reverse.length := by simp [h]
  have hr := C28_forwardFill vec.reverse toFill.reverse hl (by simpa using hne)
  have h0 : toFill.reverse[0]? = toFill.getLast? := by
    rw [← List.head?_eq_getElem?, List.head?_reverse]
  rw [h0] at hr
  refine ⟨fun hh => by rw [backwardFill_eq, hr.1 hh]; rfl, fun hh => ?_⟩
  obtain ⟨out, ho, hF⟩ := hr.2 hh
  refine ⟨out.reverse, by rw [backwardFill_eq, ho]; rfl, ?_⟩
  have hol : out.length = vec.length := by simpa using hF.length
  have hrev : ∀ i : Nat, i < vec.length → toFill.reverse[vec.length - 1 - i]? = toFill[i]? := by
    intro i hi
    rw [List.getElem?_reverse (by omega)]; congr 1; omega
  have hrevV : ∀ i : Nat, i < vec.length → vec.reverse[vec.length - 1 - i]? = vec[i]? := by
    intro i hi
    rw [List.getElem?_reverse (by omega)]; congr 1; omega
  have hrevO : ∀ i : Nat, i < vec.length → out.reverse[i]? = out[vec.length - 1 - i]? := by
    intro i hi
    rw [List.getElem?_reverse (by omega)]; congr 1; omega
  have hlt : ∀ (i : Nat) (b : Bool), toFill[i]? = some b → i < vec.length := by
    intro i b hi
    have := (List.getElem?_eq_some_iff.1 hi).1; omega
  refine ⟨⟨by simp [hol], ?_⟩, ?_⟩
  · intro i hi
    have hi' := hlt i _ hi
    rw [hrevO i hi', hF.keep _ (by rw [hrev i hi']; exact hi), hrevV i hi']
  · intro i hi
    have hi' := hlt i _ hi
    obtain ⟨j, hj, hoj⟩ := hF.fill (vec.length - 1 - i) (by rw [hrev i hi']; exact hi)
    have hjl := hj.lt
    refine ⟨vec.length - 1 - j, ⟨by omega, ?_, ?_⟩, ?_⟩
    · rw [← hrev _ (by omega), show vec.length - 1 - (vec.length - 1 - j) = j by omega]
      exact hj.un
    · intro k h1 h2
      rw [← hrev k (by omega)]
      exact hj.between _ (by omega) (by omega)
    · rw [hrevO i hi', hoj, ← hrevV _ (by omega),
        show vec.length - 1 - (vec.length - 1 - j) = j by omega]

example : backwardFill [0, 20, 0, 0, 50] [true, false, true, true, false] =
    .ok [20, 20, 50, 50, 50] := rfl

/-! ## mean, median, mode -/

private theorem unmatched_length_le (vec : List V) (toFill : List Bool) :
    (unmatched vec toFill).length ≤ vec.length := by
  have : ((vec.zip toFill).filter (fun p => !p.2)).length ≤ (vec.zip toFill).length :=
    List.length_filter_le ..
  simp [unmatched]
  simp at this; omega

private theorem unmatched_full (vec : List V) (toFill : List Bool) (h : toFill.length = vec.length) :
    (unmatched vec toFill).length = vec.length ↔ ∀ b ∈ toFill, b = false := by
  induction vec generalizing toFill with
  | nil =>
    have : toFill = [] := List.length_eq_zero_iff.1 (by simpa using h)
    subst this; simp [unmatched]
  | cons v vec ih =>
    cases toFill with
    | nil => simp at h
    | cons b toFill =>
      simp at h
      have h1 := unmatched_length_le vec toFill
      have h2 := ih toFill h
      cases b with
      | true =>
        have : unmatched (v :: vec) (true :: toFill) = unmatched vec toFill := by simp [unmatched]
        rw [this]; simp; omega
      | false =>
        have : unmatched (v :: vec) (false :: toFill) = v :: unmatched vec toFill := by
          simp [unmatched]
        rw [this]; simp at h2 ⊢; exact h2

private theorem unmatched_empty (vec : List V) (toFill : List Bool)
    (h : toFill.length = vec.length) :
    (unmatched vec toFill) = [] ↔ ∀ b ∈ toFill, b = true := by
  induction vec generalizing toFill with
  | nil =>
    have : toFill = [] := List.length_eq_zero_iff.1 (by simpa using h)
    subst this; simp [unmatched]
  | cons v vec ih =>
    cases toFill with
    | nil => simp at h
    | cons b toFill =>
      simp at h
      cases b with
      | true =>
        have : unmatched (v :: vec) (true :: toFill) = unmatched vec toFill := by simp [unmatched]
        rw [this, ih toFill h]; simp
      | false => simp [unmatched]

/-- The values at the unmatched positions, in order: a definition independent of the code. -/
def unmatchedValues (vec : List V) (toFill : List Bool) : List V :=
  (List.range vec.length).filterMap (fun i => if toFill[i]? = some false then vec[i]? else none)

theorem unmatched_eq (vec : List V) (toFill : List Bool) (h : toFill.length = vec.length) :
    unmatched vec toFill = unmatchedValues vec toFill := by
  induction vec generalizing toFill with
  | nil => simp [unmatched, unmatchedValues]
  | cons v vec ih =>
    cases toFill with
    | nil => simp at h
    | cons b toFill =>
      simp at h
      have ih' := ih toFill h
      have hr : unmatchedValues (v :: vec) (b :: toFill) =
          (if b = false then [v] else []) ++ unmatchedValues vec toFill := by
        unfold unmatchedValues
        rw [List.length_cons, List.range_succ_eq_map, List.filterMap_cons, List.filterMap_map]
        have : ((fun i => if (b :: toFill)[i]? = some false then (v :: vec)[i]? else none) ∘
            Nat.succ) = (fun i => if toFill[i]? = some false then vec[i]? else none) := by
          funext i; simp [Function.comp]
        rw [this]
        cases b <;> simp
      rw [hr, ← ih']
      cases b <;> simp [unmatched]

/-- **C28** (mean/median/mode): nothing matched — the vector itself; everything matched — refused;
statistic not a number — refused; otherwise every matched element becomes the statistic of exactly
the unmatched values and nothing else changes. -/
theorem C28_stats (stat : List V → V) (bad : V → Bool) (vec : List V) (toFill : List Bool)
    (h : toFill.length = vec.length) (hne : vec ≠ []) :
    ((∀ b ∈ toFill, b = false) → stats stat bad vec toFill = .ok vec) ∧
    ((∀ b ∈ toFill, b = true) → stats stat bad vec toFill = .error .InvalidArgumentValue) ∧
    ((∃ b ∈ toFill, b = true) → (∃ b ∈ toFill, b = false) →
      (bad (stat (unmatchedValues vec toFill)) = true →
        stats stat bad vec toFill = .error .InvalidArgumentValue) ∧
      (bad (stat (unmatchedValues vec toFill)) = false →
        ∃ out, stats stat bad vec toFill = .ok out ∧ KeepsUnmatched vec toFill out ∧
          ∀ i : Nat, toFill[i]? = some true →
            out[i]? = some (stat (unmatchedValues vec toFill)))) := by
  have hu := unmatched_eq vec toFill h
  have hf := unmatched_full vec toFill h
  have he := unmatched_empty vec toFill h
  refine ⟨fun h1 => ?_, fun h1 => ?_, fun h1 h2 => ⟨fun h3 => ?_, fun h3 => ?_⟩⟩
  · simp [stats, hf.2 h1]
  · have hne' : 0 < vec.length := List.length_pos_iff.2 hne
    simp only [stats, he.2 h1, List.length_nil, List.isEmpty_nil, if_true]
    rw [if_neg (by omega)]
  all_goals
    have hn1 : ¬ (unmatched vec toFill).length = vec.length := by
      rw [hf]; obtain ⟨b, hb, hb'⟩ := h1
      intro hc; have := hc b hb; simp [hb'] at this
    have hn2 : (unmatched vec toFill).isEmpty = false := by
      rw [Bool.eq_false_iff]; intro hc
      rw [List.isEmpty_iff, he] at hc
      obtain ⟨b, hb, hb'⟩ := h2
      have := hc b hb; simp [hb'] at this
  · simp only [stats]
    rw [if_neg hn1, hn2, hu, h3]; rfl
  · refine ⟨constant (stat (unmatchedValues vec toFill)) vec toFill, ?_, C28_constant _ _ _ h⟩
    simp only [stats]
    rw [if_neg hn1, hn2, hu, h3]; rfl

example : stats (fun l => l.sum / l.length) (fun _ => false) [2, 0, 4, 0] [false, true, false, true]
    = .ok [2, 3, 4, 3] := by decide

/-! ## interpolate -/

private theorem pairwise_snd {α : Type} (l : List α) (n : Nat) :
    (l.zipIdx n).Pairwise (fun p q => p.2 < q.2) := by
  have h : ((l.zipIdx n).map Prod.snd).Pairwise (· < ·) := by
    rw [List.zipIdx_map_snd]; exact List.pairwise_lt_range'
  exact (List.pairwise_map.1 h)

private theorem located_sorted (b : Bool) (vec : List V) (toFill : List Bool) :
    (located b vec toFill).Pairwise (fun p q => p.1 < q.1) := by
  unfold located
  rw [List.pairwise_map]
  exact (pairwise_snd _ _).filter _

private theorem mem_located {b : Bool} {vec : List V} {toFill : List Bool} {i : Nat} {v : V} :
    (i, v) ∈ located b vec toFill ↔ vec[i]? = some v ∧ toFill[i]? = some b := by
  unfold located
  simp only [List.mem_map, List.mem_filter, Prod.exists, Prod.mk.injEq]
  constructor
  · rintro ⟨v', b', i', ⟨hm, hb⟩, rfl, rfl⟩
    have hm' := (List.mk_mem_zipIdx_iff_getElem?.1 hm)
    rw [List.getElem?_zip_eq_some] at hm'
    simp at hb; subst hb; exact hm'
  · rintro ⟨h1, h2⟩
    refine ⟨v, b, i, ⟨?_, by simp⟩, rfl, rfl⟩
    rw [List.mk_mem_zipIdx_iff_getElem?, List.getElem?_zip_eq_some]; exact ⟨h1, h2⟩

private theorem interpAt_between (l : List (Nat × Rat))
    (hs : l.Pairwise (fun p q => p.1 < q.1)) {x a b : Nat} {va vb : Rat}
    (ha : (a, va) ∈ l) (hb : (b, vb) ∈ l) (hax : a < x) (hxb : x < b)
    (hno : ∀ p ∈ l, ¬ (a < p.1 ∧ p.1 < b)) :
    interpAt l x = va + (vb - va) * ((x : Rat) - a) / ((b : Rat) - a) := by
  induction l with
  | nil => simp at ha
  | cons p l ih =>
    cases l with
    | nil =>
      simp at ha hb
      have h1 := congrArg Prod.fst ha; have h2 := congrArg Prod.fst hb
      simp at h1 h2; omega
    | cons q rest =>
      obtain ⟨x0, y0⟩ := p; obtain ⟨x1, y1⟩ := q
      have hs' := hs
      rw [List.pairwise_cons] at hs
      have hlt : x0 < x1 := hs.1 (x1, y1) (by simp)
      have hx0a : x0 ≤ a := by
        rcases List.mem_cons.1 ha with h | h
        · have := congrArg Prod.fst h; simp at this; omega
        · exact Nat.le_of_lt (hs.1 _ h)
      have hnx0 : ¬ x ≤ x0 := by omega
      simp only [interpAt]
      rw [if_neg hnx0]
      by_cases hx1 : x ≤ x1
      · rw [if_pos hx1]
        have hs2 := hs.2
        rw [List.pairwise_cons] at hs2
        have ha0 : (a, va) = (x0, y0) := by
          rcases List.mem_cons.1 ha with h | h
          · exact h
          · exfalso
            rcases List.mem_cons.1 h with h | h
            · have := congrArg Prod.fst h; simp at this; omega
            · have := hs2.1 _ h; simp at this; omega
        have hb1 : (b, vb) = (x1, y1) := by
          rcases List.mem_cons.1 hb with h | h
          · exfalso; have := congrArg Prod.fst h; simp at this; omega
          · rcases List.mem_cons.1 h with h | h
            · exact h
            · exfalso
              have := hs2.1 _ h; simp at this
              have h2 := hno (x1, y1) (by simp)
              simp at h2
              have h3 := congrArg Prod.fst ha0; simp at h3
              omega
        simp at ha0 hb1
        obtain ⟨rfl, rfl⟩ := ha0; obtain ⟨rfl, rfl⟩ := hb1
        rfl
      · rw [if_neg hx1]
        have h1 := hno (x1, y1) (by simp)
        simp at h1
        apply ih hs.2
        · rcases List.mem_cons.1 ha with h | h
          · exfalso; have := congrArg Prod.fst h; simp at this; omega
          · exact h
        · rcases List.mem_cons.1 hb with h | h
          · exfalso; have := congrArg Prod.fst h; simp at this; omega
          · exact h
        · intro p hp; exact hno p (List.mem_cons_of_mem _ hp)

private theorem interpAt_left (l : List (Nat × Rat))
    (hs : l.Pairwise (fun p q => p.1 < q.1)) {x b : Nat} {vb : Rat}
    (hb : (b, vb) ∈ l) (hxb : x < b) (hno : ∀ p ∈ l, ¬ p.1 < b) : interpAt l x = vb := by
  cases l with
  | nil => simp at hb
  | cons p l =>
    obtain ⟨x0, y0⟩ := p
    rw [List.pairwise_cons] at hs
    have h0 : (b, vb) = (x0, y0) := by
      rcases List.mem_cons.1 hb with h | h
      · exact h
      · exfalso
        have h1 := hs.1 _ h
        have h2 := hno (x0, y0) (by simp)
        simp at h1 h2; omega
    simp at h0; obtain ⟨rfl, rfl⟩ := h0
    cases l with
    | nil => rfl
    | cons q rest =>
      obtain ⟨x1, y1⟩ := q
      simp only [interpAt]
      rw [if_pos (by omega)]

private theorem interpAt_right (l : List (Nat × Rat))
    (hs : l.Pairwise (fun p q => p.1 < q.1)) {x a : Nat} {va : Rat}
    (ha : (a, va) ∈ l) (hax : a < x) (hno : ∀ p ∈ l, ¬ a < p.1) : interpAt l x = va := by
  induction l with
  | nil => simp at ha
  | cons p l ih =>
    obtain ⟨x0, y0⟩ := p
    cases l with
    | nil =>
      simp at ha; obtain ⟨rfl, rfl⟩ := ha; rfl
    | cons q rest =>
      obtain ⟨x1, y1⟩ := q
      rw [List.pairwise_cons] at hs
      have h01 : x0 < x1 := hs.1 (x1, y1) (by simp)
      have h1a := hno (x1, y1) (by simp)
      simp at h1a
      simp only [interpAt]
      rw [if_neg (by omega), if_neg (by omega)]
      apply ih hs.2
      · rcases List.mem_cons.1 ha with h | h
        · exfalso; have := congrArg Prod.fst h; simp at this; omega
        · exact h
      · intro p hp; exact hno p (List.mem_cons_of_mem _ hp)

private theorem filter_ge_of_mem {l : List Nat} (hs : l.Pairwise (· < ·)) {i : Nat} (h : i ∈ l) :
    l.filter (fun k => decide (i ≤ k)) = i :: l.filter (fun k => decide (i + 1 ≤ k)) := by
  induction l with
  | nil => simp at h
  | cons x l ih =>
    rw [List.pairwise_cons] at hs
    rcases List.mem_cons.1 h with h1 | h1
    · subst h1
      rw [List.filter_cons_of_pos (by simp), List.filter_cons_of_neg (by simp)]
      congr 1
      apply List.filter_congr
      intro k hk; have := hs.1 k hk; simp; omega
    · have hx := hs.1 i h1
      rw [List.filter_cons_of_neg (by simp; omega), List.filter_cons_of_neg (by simp; omega)]
      exact ih hs.2 h1

private theorem filter_ge_of_not_mem {l : List Nat} {i : Nat} (h : i ∉ l) :
    l.filter (fun k => decide (i ≤ k)) = l.filter (fun k => decide (i + 1 ≤ k)) := by
  apply List.filter_congr
  intro k hk
  have : k ≠ i := by rintro rfl; exact h hk
  simp; omega

private theorem interpLoop_eq (ml : List Nat) (hs : ml.Pairwise (· < ·)) (g : Nat → Rat)
    (i : Nat) (vs : List Rat) :
    interpLoop ml i ((ml.filter (fun k => decide (i ≤ k))).map g) vs =
      .ok ((vs.zipIdx i).map (fun p => if p.2 ∈ ml then g p.2 else p.1)) := by
  induction vs generalizing i with
  | nil => simp [interpLoop]
  | cons v vs ih =>
    by_cases hi : i ∈ ml
    · rw [filter_ge_of_mem hs hi, List.map_cons]
      simp only [interpLoop, if_pos hi, ih (i + 1)]
      simp [List.zipIdx_cons, hi]
    · rw [filter_ge_of_not_mem hi]
      simp only [interpLoop, if_neg hi, ih (i + 1)]
      simp [List.zipIdx_cons, hi]

/-- What interpolation must produce: unmatched elements stay; a matched element between two
unmatched ones lies on the straight line through its nearest unmatched neighbours; before the first
(after the last) unmatched element it takes that element's value. -/
structure Interpolated (vec : List Rat) (toFill : List Bool) (out : List Rat) : Prop
    extends KeepsUnmatched vec toFill out where
  between : ∀ (i a b : Nat) (va vb : Rat), toFill[i]? = some true → LastBefore toFill i a →
    FirstAfter toFill i b → vec[a]? = some va → vec[b]? = some vb →
    out[i]? = some (va + (vb - va) * ((i : Rat) - a) / ((b : Rat) - a))
  left : ∀ i b : Nat, toFill[i]? = some true → FirstAfter toFill i b →
    (∀ k : Nat, k < i → toFill[k]? = some true) → out[i]? = vec[b]?
  right : ∀ i a : Nat, toFill[i]? = some true → LastBefore toFill i a →
    (∀ k : Nat, i < k → k < vec.length → toFill[k]? = some true) → out[i]? = vec[a]?

/-- **C28** (interpolate). -/
theorem C28_interpolate (vec : List Rat) (toFill : List Bool) (h : toFill.length = vec.length) :
    ((∀ b ∈ toFill, b = true) → interpolate vec toFill = .error .ValueError) ∧
    ((∃ b ∈ toFill, b = false) → ∃ out, interpolate vec toFill = .ok out ∧
      Interpolated vec toFill out) := by
  have hval : ∀ (i : Nat) (b : Bool), toFill[i]? = some b → ∃ v, vec[i]? = some v := by
    intro i b hi
    have hlt : i < toFill.length := (List.getElem?_eq_some_iff.1 hi).1
    exact ⟨vec[i], List.getElem?_eq_getElem (by omega)⟩
  have hempty : (located false vec toFill) = [] ↔ ∀ b ∈ toFill, b = true := by
    constructor
    · intro he b hb
      obtain ⟨i, hi⟩ := List.getElem?_of_mem hb
      cases b with
      | true => rfl
      | false =>
        obtain ⟨v, hv⟩ := hval i _ hi
        have := mem_located.2 ⟨hv, hi⟩
        rw [he] at this; simp at this
    · intro hall
      rw [List.eq_nil_iff_forall_not_mem]
      rintro ⟨i, v⟩ hm
      have := (mem_located.1 hm).2
      have := hall _ (List.mem_of_getElem? this)
      simp at this
  constructor
  · intro h1
    simp [interpolate, hempty.2 h1]
  · rintro ⟨b, hb, rfl⟩
    have hne : (located false vec toFill).isEmpty = false := by
      rw [Bool.eq_false_iff]; intro hc
      rw [List.isEmpty_iff, hempty] at hc
      have := hc _ hb; simp at this
    let ml := (located true vec toFill).map Prod.fst
    have hml : ∀ i : Nat, i ∈ ml ↔ toFill[i]? = some true := by
      intro i
      simp only [ml, List.mem_map, Prod.exists, exists_and_right, exists_eq_right]
      constructor
      · rintro ⟨v, hv⟩; exact (mem_located.1 hv).2
      · intro hi; obtain ⟨v, hv⟩ := hval i _ hi; exact ⟨v, mem_located.2 ⟨hv, hi⟩⟩
    have hsort : ml.Pairwise (· < ·) := by
      simp only [ml]; rw [List.pairwise_map]; exact located_sorted _ _ _
    have hloop := interpLoop_eq ml hsort (interpAt (located false vec toFill)) 0 vec
    have hfl : ml.filter (fun k => decide (0 ≤ k)) = ml := by simp
    rw [hfl] at hloop
    refine ⟨_, by simp only [interpolate, hne]; exact hloop, ?_⟩
    have hget : ∀ i : Nat, ((vec.zipIdx 0).map (fun p => if p.2 ∈ ml then
        interpAt (located false vec toFill) p.2 else p.1))[i]? =
        vec[i]?.map (fun v => if i ∈ ml then interpAt (located false vec toFill) i else v) := by
      intro i
      rw [List.getElem?_map, List.getElem?_zipIdx]
      cases vec[i]? <;> simp
    have hsf := located_sorted false vec toFill
    refine ⟨⟨by simp, ?_⟩, ?_, ?_, ?_⟩
    · intro i hi
      rw [hget]
      have : i ∉ ml := by rw [hml, hi]; simp
      simp [this]
    · intro i a b va vb hi ha hb hva hvb
      obtain ⟨v, hv⟩ := hval i _ hi
      rw [hget, hv]
      simp only [Option.map_some, if_pos ((hml i).2 hi)]
      rw [interpAt_between _ hsf (mem_located.2 ⟨hva, ha.un⟩) (mem_located.2 ⟨hvb, hb.un⟩) ha.lt hb.lt]
      rintro ⟨k, w⟩ hk ⟨h1, h2⟩
      have hk' := (mem_located.1 hk).2
      simp only at h1 h2
      rcases Nat.lt_trichotomy k i with h3 | h3 | h3
      · rw [ha.between k h1 h3] at hk'; simp at hk'
      · rw [h3, hi] at hk'; simp at hk'
      · rw [hb.between k h3 h2] at hk'; simp at hk'
    · intro i b hi hb hall
      obtain ⟨v, hv⟩ := hval i _ hi
      obtain ⟨vb, hvb⟩ := hval b _ hb.un
      rw [hget, hv, hvb]
      simp only [Option.map_some, if_pos ((hml i).2 hi)]
      rw [interpAt_left _ hsf (mem_located.2 ⟨hvb, hb.un⟩) hb.lt]
      rintro ⟨k, w⟩ hk h2
      have hk' := (mem_located.1 hk).2
      simp only at h2
      rcases Nat.lt_trichotomy k i with h3 | h3 | h3
      · rw [hall k h3] at hk'; simp at hk'
      · rw [h3, hi] at hk'; simp at hk'
      · rw [hb.between k h3 h2] at hk'; simp at hk'
    · intro i a hi ha hall
      obtain ⟨v, hv⟩ := hval i _ hi
      obtain ⟨va, hva⟩ := hval a _ ha.un
      rw [hget, hv, hva]
      simp only [Option.map_some, if_pos ((hml i).2 hi)]
      rw [interpAt_right _ hsf (mem_located.2 ⟨hva, ha.un⟩) ha.lt]
      rintro ⟨k, w⟩ hk h2
      have hk' := (mem_located.1 hk)
      have hkl : k < vec.length := (List.getElem?_eq_some_iff.1 hk'.1).1
      have hk' := hk'.2
      simp only at h2
      rcases Nat.lt_trichotomy k i with h3 | h3 | h3
      · rw [ha.between k h2 h3] at hk'; simp at hk'
      · rw [h3, hi] at hk'; simp at hk'
      · rw [hall k h3 hkl] at hk'; simp at hk'

example : interpolate [0, 2, 0, 0, 8, 0] [true, false, true, true, false, true] =
    .ok [2, 2, 4, 6, 8, 8] := by decide +kernel

end Fill
end Nimble
