import Verif.Model.HashCode
import Verif.Props.CalcElements
import Mathlib.Algebra.BigOperators.Group.List.Basic
import Mathlib.Data.Rat.Floor
import Mathlib.Tactic.Linarith
import Mathlib.Tactic.Ring
import Mathlib.Tactic.FieldSimp

/-!
# C102: `hashCode` and `isApproximatelyEqual`
-/

namespace Nimble.Elements
open Nimble.Match Nimble.LearnFill Nimble.Obj

/-! ## Specification -/

/-- The objects hold the same elements: numbers that are equal, texts that are equal, or missing values. -/
structure SameElements (a b : Obj Val) : Prop where
  points : a.pts.len = b.pts.len
  features : a.fts.len = b.fts.len
  elems : ∀ (i j : Nat), (a.elem? i j).map canon = (b.elem? i j).map canon

/-- Calculations with nan give nan. -/
structure Arith.NanLaw (A : Arith) : Prop where
  mul : ∀ w, A.mul w .nan = .ok .nan
  sum : ∀ l, Flt.nan ∈ l → A.sum l = .nan
  div : ∀ n, A.div .nan n = .nan
  big : A.big .nan = .nan

/-- The number in element `(i, j)`. -/
def HasNumber (o : Obj Val) (i j : Nat) (q : Rat) : Prop := (o.elem? i j).map canon = some (.num (.fin q))

/-- Exact arithmetic on finite numbers, with weights `w`. -/
def exactMul : Flt → Flt → Flt
  | .fin a, .fin b => .fin (a * b)
  | .fin a, .inf => if 0 < a then .inf else if a < 0 then .ninf else .nan
  | .fin a, .ninf => if 0 < a then .ninf else if a < 0 then .inf else .nan
  | _, _ => .nan

def exactAdd : Flt → Flt → Flt
  | .fin a, .fin b => .fin (a + b)
  | .fin _, x => x
  | x, .fin _ => x
  | .inf, .inf => .inf
  | .ninf, .ninf => .ninf
  | _, _ => .nan

def exactScale (c : Rat) : Flt → Flt
  | .fin q => .fin (c * q)
  | x => x

def exact (w : Nat → Nat → Rat) : Arith :=
  ⟨fun i j => .fin (w i j), fun a b => .ok (exactMul a b), fun l => l.foldr exactAdd (.fin 0),
    fun x n => exactScale (1 / n) x, exactScale 1000000000⟩

/-- The weighted average of the elements. -/
def average (w q : Nat → Nat → Rat) (nP nF : Nat) : Rat :=
  ((List.range nP).map (fun i => ((List.range nF).map (fun j => w i j * q i j)).sum)).sum / (nP * nF : Nat)

/-! ## Rounding -/

theorem roundEven_near (q : Rat) : |(roundEven q : Rat) - q| ≤ 1 / 2 := by
  have h1 : (q.floor : Rat) ≤ q := Rat.floor_le q
  have h2 : q < q.floor + 1 := by exact_mod_cast Rat.lt_floor_add_one q
  unfold roundEven
  dsimp only
  split
  · rw [abs_le]; constructor <;> linarith
  · split
    · rw [abs_le]; push_cast; constructor <;> linarith
    · split
      · rw [abs_le]; constructor <;> linarith
      · rw [abs_le]; push_cast; constructor <;> linarith

/-! ## The hash -/

theorem fltOf_canon {v w : Val} (h : canon v = canon w) : fltOf v = fltOf w := by
  have key : ∀ v, fltOf v = match canon v with | .num f => f | _ => .nan := by
    intro v
    cases v with
    | none => rfl
    | bool np b => rfl
    | int np i => rfl
    | flt np f => cases f <;> rfl
    | str s => rfl
  rw [key, key, h]

theorem shows_floats {r : Obj Val} {rows : List (List Val)} {nP nF : Nat} (h : Shows r rows nP nF)
    (hl : rows.length = nP) (hr : ∀ x ∈ rows, x.length = nF) :
    r.data.map (fun x => x.map fltOf) = rows.map (fun x => x.map fltOf) := by
  refine List.ext_getElem (by simp [h.wf.rows, h.plen, hl]) ?_
  intro i h1 h2
  simp only [List.length_map] at h1 h2
  simp only [List.getElem_map]
  have c1 := h.wf.cols _ (List.getElem_mem h1)
  have c2 := hr _ (List.getElem_mem h2)
  refine List.ext_getElem (by simp [c1, c2, h.flen]) ?_
  intro j h3 h4
  simp only [List.length_map] at h3 h4
  simp only [List.getElem_map]
  have := h.elems i j
  simp only [Obj.elem?, List.getElem?_eq_getElem h1, List.getElem?_eq_getElem h2, Option.bind_some,
    List.getElem?_eq_getElem h3, List.getElem?_eq_getElem h4, Option.map_some] at this
  exact fltOf_canon (by simpa using this)

/-- The rows of products. -/
abbrev HashRows (A : Arith) (o : Obj Val) (rows : List (List Val)) : Prop :=
  NewRows (.three (hashCodeFunc A)) true false o (List.range o.pts.len) (List.range o.fts.len) rows

theorem hashFunc_float {A : Arith} {v w : Val} {i j : Nat} (h : hashCodeFunc A v i j = .ok (some w)) :
    ∃ x y, asNumber v = .ok x ∧ A.mul (A.weight i j) x = .ok y ∧ w = .flt false y := by
  unfold hashCodeFunc at h
  simp only [bind, Except.bind, pure, Except.pure] at h
  cases h1 : asNumber v with
  | error e => rw [h1] at h; cases h
  | ok x =>
    rw [h1] at h
    dsimp only at h
    cases h2 : A.mul (A.weight i j) x with
    | error e => rw [h2] at h; cases h
    | ok y => rw [h2] at h; cases h; exact ⟨x, y, rfl, h2, rfl⟩

theorem new_float {A : Arith} {v w : Val} {i j : Nat} (h : NewValue (.three (hashCodeFunc A)) true false v i j w) :
    ∃ y, w = .flt false y := by
  cases h with
  | zero => exact ⟨_, rfl⟩
  | skipped _ hs => cases hs
  | value hz _ hs hr =>
    obtain ⟨x, y, -, -, e⟩ := hashFunc_float hr
    exact ⟨y, e⟩

theorem hashRows_float {A : Arith} {o : Obj Val} {rows : List (List Val)} (h : HashRows A o rows) :
    ∀ r ∈ rows, ∀ w ∈ r, ∃ y, w = .flt false y := by
  intro r hr w hw
  obtain ⟨i, -, h1⟩ := forall₂_mem_right h r hr
  obtain ⟨j, -, v, -, h2⟩ := forall₂_mem_right h1 w hw
  exact new_float h2

theorem hash_iff {A : Arith} {P : Conv} {k : Kind} {o : Obj Val} (h : o.WF) (hp : 0 < o.pts.len) (hf : 0 < o.fts.len)
    (x : Int) : hashCode A P k o = .ok x ↔
      ∃ rows, HashRows A o rows ∧ hashOf A (o.pts.len * o.fts.len) (rows.flatten.map fltOf) = .ok x := by
  have key : ∀ rows, HashRows A o rows → ∃ r,
      calculateOnElements P k (.three (hashCodeFunc A)) true false .all .all o = .ok r ∧
      r.data.flatten.map fltOf = rows.flatten.map fltOf := by
    intro rows hrows
    obtain ⟨s1, s2⟩ := forall₂_shape hrows
    obtain ⟨r, r1, r2⟩ := C86_calculate (P := P) (kind := k) h (.inl ⟨rfl, rfl⟩) (.inl ⟨rfl, rfl⟩) hrows
      (fun hc => absurd rfl (hc.2 (hashCodeFunc A)))
      (fun _ => noText_plain s2 (fun r hr w hw s => by
        obtain ⟨y, rfl⟩ := hashRows_float hrows r hr w hw
        simp))
    refine ⟨r, r1, ?_⟩
    rw [List.map_flatten, List.map_flatten, shows_floats r2 s1 s2]
  unfold hashCode
  rw [if_neg (by omega)]
  simp only [bind, Except.bind]
  constructor
  · intro hx
    cases hc : calculateOnElements P k (.three (hashCodeFunc A)) true false .all .all o with
    | error e => rw [hc] at hx; cases hx
    | ok r =>
      rw [hc] at hx
      obtain ⟨rows, hrows⟩ := C86_calculate_only h (.inl ⟨rfl, rfl⟩) (.inl ⟨rfl, rfl⟩) hc
      obtain ⟨r', h1, h2⟩ := key rows hrows
      rw [hc] at h1
      cases h1
      exact ⟨rows, hrows, by rw [← h2]; exact hx⟩
  · rintro ⟨rows, hrows, hx⟩
    obtain ⟨r, h1, h2⟩ := key rows hrows
    rw [h1]
    dsimp only
    rw [h2]
    exact hx

/-- **C102 (range).**  A hash is at least 0 and less than a billion. -/
theorem C102_range {A : Arith} {P : Conv} {k : Kind} {o : Obj Val} {x : Int} (h : hashCode A P k o = .ok x) :
    0 ≤ x ∧ x < 1000000000 := by
  unfold hashCode at h
  split at h
  · cases h; decide
  · simp only [bind, Except.bind] at h
    cases hc : calculateOnElements P k (.three (hashCodeFunc A)) true false .all .all o with
    | error e => rw [hc] at h; cases h
    | ok r =>
      rw [hc] at h
      dsimp only at h
      unfold hashOf at h
      cases hr : pyRound (A.big (A.div (A.sum (r.data.flatten.map fltOf)) (o.pts.len * o.fts.len))) with
      | error e => rw [hr] at h; cases h
      | ok n =>
        rw [hr] at h
        simp only [Except.map, Except.ok.injEq] at h
        omega

theorem hashOf_nan {A : Arith} (hA : A.NanLaw) {n : Nat} {l : List Flt} (h : Flt.nan ∈ l) :
    hashOf A n l = .error .ValueError := by
  unfold hashOf
  rw [hA.sum l h, hA.div, hA.big]
  rfl

theorem forall₂_keep {A B : Type} {R : A → B → Prop} {l : List A} {r : List B} (h : List.Forall₂ R l r) :
    List.Forall₂ (fun a b => b ∈ r ∧ R a b) l r := by
  induction h with
  | nil => exact .nil
  | cons h hs ih => exact .cons ⟨by simp, h⟩ (ih.imp (fun a b x => ⟨by simp [x.1], x.2⟩))

theorem asNumber_canon {v : Val} {x : Flt} (h : asNumber v = .ok x) (hx : x ≠ .nan) : canon v = .num x := by
  cases v with
  | none => cases h
  | str s => cases h
  | bool np b => cases h; rfl
  | int np i => cases h; rfl
  | flt np f =>
    cases h
    cases x with
    | nan => exact absurd rfl hx
    | fin q => rfl
    | inf => rfl
    | ninf => rfl

theorem canon_asNumber {v : Val} {x : Flt} (h : canon v = .num x) : asNumber v = .ok x := by
  cases v with
  | none => cases h
  | str s => cases h
  | bool np b => cases h; rfl
  | int np i => cases h; rfl
  | flt np f => cases f <;> cases h <;> rfl

theorem new_same {A : Arith} (hA : A.NanLaw) {v v' w : Val} {i j : Nat} (hc : canon v = canon v')
    (hw : fltOf w ≠ .nan) (h : NewValue (.three (hashCodeFunc A)) true false v i j w) :
    NewValue (.three (hashCodeFunc A)) true false v' i j w := by
  cases h with
  | zero hz hv => exact .zero hz (hc ▸ hv)
  | skipped _ hs => cases hs
  | value hz _ hs hr =>
    refine .value (by rw [← hc]; exact hz) _ hs ?_
    obtain ⟨x, y, h1, h2, rfl⟩ := hashFunc_float hr
    have hx : x ≠ .nan := by
      rintro rfl
      rw [hA.mul] at h2
      cases h2
      exact hw rfl
    have h3 := canon_asNumber (hc ▸ asNumber_canon h1 hx)
    show hashCodeFunc A v' i j = _
    simp only [hashCodeFunc, h3, h2, bind, Except.bind, pure, Except.pure]

/-- **C102 (only the elements count).**  Objects with the same elements have the same hash, whatever their names, their
representations and the types of their elements. -/
theorem C102_same {A : Arith} (hA : A.NanLaw) {P P' : Conv} {k k' : Kind} {a b : Obj Val} (ha : a.WF) (hb : b.WF)
    (h : SameElements a b) {x : Int} (hx : hashCode A P k a = .ok x) : hashCode A P' k' b = .ok x := by
  by_cases hz : a.pts.len = 0 ∨ a.fts.len = 0
  · unfold hashCode at hx ⊢
    rw [if_pos hz] at hx
    rw [if_pos (by rw [← h.points, ← h.features]; exact hz)]
    exact hx
  · obtain ⟨rows, h1, h2⟩ := (hash_iff ha (by omega) (by omega) x).1 hx
    refine (hash_iff hb (by rw [← h.points]; omega) (by rw [← h.features]; omega) x).2 ⟨rows, ?_, ?_⟩
    · have hnan : ∀ r ∈ rows, ∀ w ∈ r, fltOf w ≠ .nan := by
        intro r hr w hw hc
        rw [hashOf_nan hA (List.mem_map.2 ⟨w, List.mem_flatten.2 ⟨r, hr, hw⟩, hc⟩)] at h2
        cases h2
      unfold HashRows at h1 ⊢
      rw [← h.points, ← h.features]
      refine (forall₂_keep h1).imp ?_
      rintro i row ⟨hrow, hr⟩
      refine (forall₂_keep hr).imp ?_
      rintro j w ⟨hw, v, hv, hn⟩
      have he := h.elems i j
      rw [hv] at he
      cases hv' : b.elem? i j with
      | none => rw [hv'] at he; cases he
      | some v' =>
        rw [hv'] at he
        simp only [Option.map_some, Option.some.injEq] at he
        exact ⟨v', rfl, new_same hA he (hnan row hrow w hw) hn⟩
    · rw [← h.points, ← h.features]
      exact h2

theorem SameElements.symm {a b : Obj Val} (h : SameElements a b) : SameElements b a :=
  ⟨h.points.symm, h.features.symm, fun i j => (h.elems i j).symm⟩

/-- **C102 (False is definite).**  If `isApproximatelyEqual` returns False, the elements differ. -/
theorem C102_false_definite {A : Arith} (hA : A.NanLaw) {P : Conv} {k k' : Kind} {a b : Obj Val} (ha : a.WF) (hb : b.WF)
    (h : isApproximatelyEqual A P k k' a b = .ok false) : ¬ SameElements a b := by
  intro hs
  unfold isApproximatelyEqual at h
  rw [if_neg (by rw [hs.points, hs.features]; simp)] at h
  simp only [bind, Except.bind, pure, Except.pure] at h
  cases h1 : hashCode A P k a with
  | error e => rw [h1] at h; cases h
  | ok x =>
    rw [h1, C102_same hA ha hb hs h1 (P' := P) (k' := k')] at h
    simp at h

/-- **C102 (shape).**  Objects of different shapes are not approximately equal. -/
theorem C102_shape (A : Arith) (P : Conv) (k k' : Kind) (a b : Obj Val)
    (h : ¬ (a.pts.len = b.pts.len ∧ a.fts.len = b.fts.len)) : isApproximatelyEqual A P k k' a b = .ok false := by
  unfold isApproximatelyEqual
  rw [if_pos (by
    by_contra hc
    simp only [ne_eq, not_or, Decidable.not_not] at hc
    exact h hc)]

/-! ## Exact arithmetic -/

theorem exact_nan (w : Nat → Nat → Rat) : (exact w).NanLaw := by
  refine ⟨fun x => by cases x <;> rfl, fun l h => ?_, fun _ => rfl, rfl⟩
  show l.foldr exactAdd (.fin 0) = .nan
  induction l with
  | nil => cases h
  | cons a l ih =>
    rw [List.foldr_cons]
    rcases List.mem_cons.1 h with rfl | h
    · cases l.foldr exactAdd (.fin 0) <;> rfl
    · rw [ih h]; cases a <;> rfl

theorem exact_sum (l : List Rat) : (l.map Flt.fin).foldr exactAdd (.fin 0) = .fin l.sum := by
  induction l with
  | nil => rfl
  | cons a l ih => rw [List.map_cons, List.foldr_cons, ih]; rfl

theorem forall₂_range {B : Type} {R : Nat → B → Prop} (f : Nat → B) (n : Nat) (h : ∀ i, i < n → R i (f i)) :
    List.Forall₂ R (List.range n) ((List.range n).map f) := by
  rw [List.forall₂_map_right_iff, List.forall₂_same]
  intro i hi
  exact h i (List.mem_range.1 hi)

/-- **C102 (value).**  With exact arithmetic the hash of an object of numbers is a billion times the weighted average of
its elements, rounded, modulo a billion. -/
theorem C102_value {w : Nat → Nat → Rat} {P : Conv} {k : Kind} {o : Obj Val} (h : o.WF) (hp : 0 < o.pts.len)
    (hf : 0 < o.fts.len) {q : Nat → Nat → Rat}
    (hq : ∀ i j, i < o.pts.len → j < o.fts.len → HasNumber o i j (q i j)) :
    ∃ n : Int, |(n : Rat) - 1000000000 * average w q o.pts.len o.fts.len| ≤ 1 / 2 ∧
      hashCode (exact w) P k o = .ok (n % 1000000000) := by
  refine ⟨_, roundEven_near _, ?_⟩
  rw [hash_iff h hp hf]
  refine ⟨(List.range o.pts.len).map (fun i => (List.range o.fts.len).map (fun j => Val.flt false (.fin (w i j * q i j)))),
    ?_, ?_⟩
  · refine forall₂_range _ _ (fun i hi => forall₂_range _ _ (fun j hj => ?_))
    have hn := hq i j hi hj
    unfold HasNumber at hn
    cases hv : o.elem? i j with
    | none => rw [hv] at hn; cases hn
    | some v =>
      rw [hv] at hn
      simp only [Option.map_some, Option.some.injEq] at hn
      refine ⟨v, rfl, ?_⟩
      by_cases hz : canon v = .num (.fin 0)
      · rw [hz] at hn
        simp only [Canon.num.injEq, Flt.fin.injEq] at hn
        rw [← hn, mul_zero]
        exact .zero (.inl rfl) hz
      · refine .value (fun hc => hz hc.2) _ (by simp) ?_
        show hashCodeFunc (exact w) v i j = _
        simp only [hashCodeFunc, canon_asNumber hn, bind, Except.bind, pure, Except.pure]
        rfl
  · have hfl : ((List.range o.pts.len).map (fun i => (List.range o.fts.len).map
        (fun j => Val.flt false (.fin (w i j * q i j))))).flatten.map fltOf =
        ((List.range o.pts.len).map (fun i => (List.range o.fts.len).map (fun j => w i j * q i j))).flatten.map Flt.fin := by
      rw [List.map_flatten, List.map_flatten, List.map_map, List.map_map]
      congr 1
      apply List.map_congr_left
      intro i _
      simp [Function.comp_def, fltOf]
    rw [hfl]
    unfold hashOf
    show Except.map _ (pyRound (exactScale 1000000000 (exactScale (1 / ((o.pts.len * o.fts.len : Nat) : Rat)) (List.foldr exactAdd (.fin 0) _)))) = _
    rw [exact_sum]
    have hs : ((List.range o.pts.len).map (fun i => (List.range o.fts.len).map (fun j => w i j * q i j))).flatten.sum =
        ((List.range o.pts.len).map (fun i => ((List.range o.fts.len).map (fun j => w i j * q i j)).sum)).sum := by
      rw [List.sum_flatten, List.map_map]
      rfl
    rw [hs]
    show Except.ok (roundEven (1000000000 * (1 / ((o.pts.len * o.fts.len : Nat) : Rat) * _)) % 1000000000) = _
    unfold average
    congr 4
    ring

/-- **C102 (True for the same numbers).**  Objects with the same elements, all of them numbers, are approximately equal. -/
theorem C102_true {w : Nat → Nat → Rat} {P : Conv} {k k' : Kind} {a b : Obj Val} (ha : a.WF) (hb : b.WF)
    (h : SameElements a b) {q : Nat → Nat → Rat}
    (hq : ∀ i j, i < a.pts.len → j < a.fts.len → HasNumber a i j (q i j)) :
    isApproximatelyEqual (exact w) P k k' a b = .ok true := by
  have hx : ∃ x, hashCode (exact w) P k a = .ok x := by
    by_cases hz : a.pts.len = 0 ∨ a.fts.len = 0
    · exact ⟨0, by unfold hashCode; rw [if_pos hz]⟩
    · obtain ⟨n, -, hn⟩ := C102_value (w := w) (P := P) (k := k) ha (by omega) (by omega) hq
      exact ⟨_, hn⟩
  obtain ⟨x, hx⟩ := hx
  unfold isApproximatelyEqual
  rw [if_neg (by rw [h.points, h.features]; simp)]
  simp only [bind, Except.bind, pure, Except.pure, hx, C102_same (exact_nan w) ha hb h hx (P' := P) (k' := k')]
  simp

/-- The sum changes by what one term changes. -/
theorem sum_change {f g : Nat → Rat} {n i : Nat} (hi : i < n) (h : ∀ k, k < n → k ≠ i → f k = g k) :
    ((List.range n).map f).sum - ((List.range n).map g).sum = f i - g i := by
  induction n with
  | zero => omega
  | succ n ih =>
    simp only [List.range_succ, List.map_append, List.map_cons, List.map_nil, List.sum_append, List.sum_cons, List.sum_nil]
    by_cases hin : i = n
    · subst hin
      have : (List.range i).map f = (List.range i).map g :=
        List.map_congr_left (fun k hk => h k (by have := List.mem_range.1 hk; omega) (by have := List.mem_range.1 hk; omega))
      rw [this]; ring
    · have h1 := ih (by omega) (fun k hk => h k (by omega))
      have h2 := h n (by omega) (by omega)
      rw [h2]
      linarith

/-- **C102 (a change is seen).**  If one element of an object of numbers changes such that the average changes by more than
a billionth and less than 1 - 10⁻⁹, the hash changes. -/
theorem C102_change_seen {w : Nat → Nat → Rat} {P P' : Conv} {k k' : Kind} {a b : Obj Val} (ha : a.WF) (hb : b.WF)
    (hp : a.pts.len = b.pts.len) (hf : a.fts.len = b.fts.len) {q q' : Nat → Nat → Rat}
    (hq : ∀ i j, i < a.pts.len → j < a.fts.len → HasNumber a i j (q i j))
    (hq' : ∀ i j, i < a.pts.len → j < a.fts.len → HasNumber b i j (q' i j))
    {i₀ j₀ : Nat} (hi : i₀ < a.pts.len) (hj : j₀ < a.fts.len)
    (hsame : ∀ i j, i < a.pts.len → j < a.fts.len → (i, j) ≠ (i₀, j₀) → q i j = q' i j)
    (hlow : (1 : Rat) < |1000000000 * (w i₀ j₀ * (q i₀ j₀ - q' i₀ j₀)) / (a.pts.len * a.fts.len : Nat)|)
    (hhigh : |1000000000 * (w i₀ j₀ * (q i₀ j₀ - q' i₀ j₀)) / (a.pts.len * a.fts.len : Nat)| < 1000000000 - 1) :
    hashCode (exact w) P k a ≠ hashCode (exact w) P' k' b := by
  obtain ⟨n, n1, n2⟩ := C102_value (w := w) (P := P) (k := k) ha (by omega) (by omega) hq
  obtain ⟨m, m1, m2⟩ := C102_value (w := w) (P := P') (k := k') hb (by omega) (by omega) (q := q')
    (by rw [← hp, ← hf]; exact hq')
  rw [n2, m2]
  have hd : 1000000000 * average w q a.pts.len a.fts.len - 1000000000 * average w q' b.pts.len b.fts.len =
      1000000000 * (w i₀ j₀ * (q i₀ j₀ - q' i₀ j₀)) / (a.pts.len * a.fts.len : Nat) := by
    unfold average
    rw [← hp, ← hf]
    have := sum_change (f := fun i => ((List.range a.fts.len).map (fun j => w i j * q i j)).sum)
      (g := fun i => ((List.range a.fts.len).map (fun j => w i j * q' i j)).sum) hi (by
        intro i hi' hne
        congr 1
        apply List.map_congr_left
        intro j hj'
        rw [hsame i j hi' (List.mem_range.1 hj') (by simp [hne])])
    have h2 := sum_change (f := fun j => w i₀ j * q i₀ j) (g := fun j => w i₀ j * q' i₀ j) hj (by
        intro j hj' hne
        rw [hsame i₀ j hi hj' (by simp [hne])])
    rw [← mul_sub, ← sub_div, this, h2]
    ring
  rw [← hd] at hlow hhigh
  rw [abs_le] at n1 m1
  intro hc
  simp only [Except.ok.injEq] at hc
  have h3 : (1000000000 : Int) ∣ n - m := Int.dvd_of_emod_eq_zero (by omega)
  obtain ⟨c, hc'⟩ := h3
  have hcast : ((n : Rat) - m) = 1000000000 * c := by exact_mod_cast hc'
  have hne : n - m ≠ 0 := by
    intro h0
    have : (n : Rat) - m = 0 := by exact_mod_cast h0
    have h5 : |1000000000 * average w q a.pts.len a.fts.len - 1000000000 * average w q' b.pts.len b.fts.len| ≤ 1 := by
      rw [abs_le]; constructor <;> linarith [n1.1, n1.2, m1.1, m1.2]
    linarith
  have hlt : |(n : Rat) - m| < 1000000000 := by
    rw [abs_lt] at hhigh ⊢
    constructor <;> linarith [n1.1, n1.2, m1.1, m1.2, hhigh.1, hhigh.2]
  have : |n - m| < 1000000000 := by exact_mod_cast hlt
  rw [abs_lt] at this
  omega

/-! ## Missing values and texts -/

/-- C102 (an answer for all objects) is false: an object with a missing value cannot be compared, not even with itself. -/
theorem C102_missing_violated {A : Arith} (hA : A.NanLaw) (P : Conv) (k k' : Kind) {a b : Obj Val} (ha : a.WF)
    (hs : a.pts.len = b.pts.len ∧ a.fts.len = b.fts.len) {i j : Nat} (h : (a.elem? i j).map canon = some .missing) :
    ∀ r, isApproximatelyEqual A P k k' a b ≠ .ok r := by
  intro r hr
  unfold isApproximatelyEqual at hr
  rw [if_neg (by rw [hs.1, hs.2]; simp)] at hr
  simp only [bind, Except.bind, pure, Except.pure] at hr
  cases h1 : hashCode A P k a with
  | error e => rw [h1] at hr; cases hr
  | ok x =>
    cases hv : a.elem? i j with
    | none => rw [hv] at h; cases h
    | some v =>
      rw [hv] at h
      simp only [Option.map_some, Option.some.injEq] at h
      obtain ⟨row, hrow, hcell⟩ : ∃ row, a.data[i]? = some row ∧ row[j]? = some v := by
        unfold Obj.elem? at hv
        exact Option.bind_eq_some_iff.1 hv
      obtain ⟨hi, hi'⟩ := List.getElem?_eq_some_iff.1 hrow
      obtain ⟨hj, -⟩ := List.getElem?_eq_some_iff.1 hcell
      have hcl := ha.cols row (by rw [← hi']; exact List.getElem_mem hi)
      have hrl := ha.rows
      obtain ⟨rows, h2, h3⟩ := (hash_iff ha (by omega) (by omega) x).1 h1
      have hg : ∃ row', rows[i]? = some row' ∧ ∃ w, row'[j]? = some w ∧
          NewValue (.three (hashCodeFunc A)) true false v i j w := by
        obtain ⟨l1, g1⟩ := List.forall₂_iff_get.1 h2
        simp only [List.length_range] at l1
        have hir : i < rows.length := by omega
        have := g1 i (by simp; omega) hir
        simp only [List.get_eq_getElem, List.getElem_range] at this
        obtain ⟨l2, g2⟩ := List.forall₂_iff_get.1 this
        simp only [List.length_range] at l2
        have hjr : j < rows[i].length := by omega
        have := g2 j (by simp; omega) hjr
        simp only [List.get_eq_getElem, List.getElem_range] at this
        obtain ⟨v', hv', hn⟩ := this
        rw [hv] at hv'
        cases hv'
        exact ⟨_, List.getElem?_eq_getElem hir, _, List.getElem?_eq_getElem hjr, hn⟩
      obtain ⟨row', e1, w, e2, hn⟩ := hg
      have hw : fltOf w = .nan := by
        cases hn with
        | zero _ hz => rw [h] at hz; cases hz
        | skipped _ hs => cases hs
        | value _ _ _ hr =>
          obtain ⟨x, y, c1, c2, rfl⟩ := hashFunc_float hr
          by_cases hx : x = .nan
          · subst hx
            rw [hA.mul] at c2
            cases c2
            rfl
          · rw [asNumber_canon c1 hx] at h
            cases h
      rw [hashOf_nan hA (List.mem_map.2 ⟨w, List.mem_flatten.2 ⟨row', List.mem_of_getElem? e1, List.mem_of_getElem? e2⟩, hw⟩)] at h3
      cases h3

/-! ## Examples -/

/-- Two by two numbers of several types. -/
def exHashA : Obj Val :=
  ⟨[[.int false 1, .bool false false], [.flt false (.fin (1 / 2)), .int false 3]], ⟨2, none⟩, ⟨2, none⟩⟩

/-- The same numbers, all floats. -/
def exHashB : Obj Val :=
  ⟨[[.flt true (.fin 1), .flt true (.fin 0)], [.flt true (.fin (1 / 2)), .flt true (.fin 3)]], ⟨2, none⟩, ⟨2, none⟩⟩

example : SameElements exHashA exHashB := by
  refine ⟨rfl, rfl, ?_⟩
  intro i j
  have h : ∀ x y : List (List Val), x.map (fun r => r.map canon) = y.map (fun r => r.map canon) →
      ((x[i]?).bind (fun r => r[j]?)).map canon = ((y[i]?).bind (fun r => r[j]?)).map canon := by
    intro x y hxy
    have h1 := congrArg (fun (l : List (List Canon)) => (l[i]?).bind (fun r => r[j]?)) hxy
    simp only [List.getElem?_map] at h1
    cases hx : x[i]? <;> cases hy : y[i]? <;> simp_all
  exact h exHashA.data exHashB.data (by decide +kernel)

example : isApproximatelyEqual (exact fun i j => (i + j + 1 : Nat)) ⟨fun _ => none, fun _ => none, fun _ => ""⟩ .array .frame
    exHashA exHashB = .ok true := by decide +kernel

example : hashCode (exact fun i j => (i + j + 1 : Nat) / 7) ⟨fun _ => none, fun _ => none, fun _ => ""⟩ .array exHashA =
    .ok 392857143 := by decide +kernel

end Nimble.Elements
