import Verif.Model.Residuals
import Verif.Lemmas.Structural
import Mathlib.Algebra.Order.Field.Basic
import Mathlib.Tactic.Ring
import Mathlib.Tactic.Linarith
import Mathlib.Tactic.FieldSimp
import Mathlib.Algebra.Order.Ring.Rat
import Mathlib.Algebra.Field.Rat

/-!
# C111: residuals of linear regressions
-/

namespace Nimble
namespace Residuals
variable {V : Type}

/-! ## Specification -/

/-- The sum of the products of two vectors. -/
def dot [Mul V] [Add V] [Zero V] (a b : List V) : V := (List.zipWith (· * ·) a b).sum

/-- The errors of the equations `row · x = value`. -/
def errors [Mul V] [Add V] [Zero V] [Sub V] (a : List (List V)) (b x : List V) : List V :=
  List.zipWith (fun r v => v - dot r x) a b

/-- Column `j` of a table. -/
def column (a : List (List V)) (j : Nat) : List V := a.filterMap (·[j]?)

/-- What is assumed of the routine: it gives one solution for each column of `b`, and no other vector has
a smaller sum of squared errors. -/
def LeastSquares [Field V] [LE V] (lstsq : List (List V) → List (List V) → Res (List (List V))) : Prop :=
  ∀ (n m : Nat) (a b xs : List (List V)), (∀ r ∈ a, r.length = n) → b.length = a.length →
    (∀ r ∈ b, r.length = m) → lstsq a b = .ok xs → xs.length = m ∧
      ∀ j x, xs[j]? = some x → x.length = n ∧ ∀ y : List V, y.length = n →
        dot (errors a (column b j) x) (errors a (column b j) x) ≤
          dot (errors a (column b j) y) (errors a (column b j) y)

/-- `r` is what is left of `b` after the part which depends on the control variables: `b` less a
combination of them and a constant, with the sum 0 and orthogonal to each of them. -/
structure Residual [Field V] (controls : List (List V)) (width : Nat) (b r : List V) : Prop where
  difference : ∃ cs c, cs.length = width ∧ r = List.zipWith (fun row v => v - (dot row cs + c)) controls b
  zeroSum : r.sum = 0
  orthogonal : ∀ k, k < width → dot r (column controls k) = 0

/-! ## Lemmas -/

section
variable [Field V]

/-- `x` with `t` more at `k`. -/
def bump : List V → Nat → V → List V
  | [], _, _ => []
  | a :: x, 0, t => (a + t) :: x
  | a :: x, k + 1, t => a :: bump x k t

theorem length_bump : ∀ (x : List V) (k : Nat) (t : V), (bump x k t).length = x.length
  | [], _, _ => rfl
  | _ :: _, 0, _ => rfl
  | _ :: x, k + 1, t => by simp [bump, length_bump x k t]

theorem dot_cons (a b : V) (x y : List V) : dot (a :: x) (b :: y) = a * b + dot x y := by simp [dot]

theorem dot_bump : ∀ (r x : List V) (k : Nat) (t c : V), x.length = r.length → r[k]? = some c →
    dot r (bump x k t) = dot r x + t * c
  | [], _, _, _, _, _, h => by simp at h
  | _ :: _, [], _, _, _, h, _ => by simp at h
  | a :: r, b :: x, 0, t, c, _, h => by
    simp only [List.getElem?_cons_zero, Option.some.injEq] at h
    subst h
    rw [bump, dot_cons, dot_cons]; ring
  | a :: r, b :: x, k + 1, t, c, hl, h => by
    rw [bump, dot_cons, dot_cons, dot_bump r x k t c (by simpa using hl) (by simpa using h)]; ring

theorem sq_bump (n k : Nat) (hk : k < n) (x : List V) (hx : x.length = n) (t : V) :
    ∀ (a : List (List V)) (b : List V), (∀ r ∈ a, r.length = n) → b.length = a.length →
      dot (errors a b (bump x k t)) (errors a b (bump x k t)) =
        dot (errors a b x) (errors a b x) - 2 * t * dot (errors a b x) (column a k) +
          t ^ 2 * dot (column a k) (column a k)
  | [], _, _, _ => by simp [errors, dot, column]
  | _ :: _, [], _, h => by simp at h
  | r :: a, v :: b, hr, hl => by
    have ih := sq_bump n k hk x hx t a b (fun q hq => hr q (by simp [hq])) (by simpa using hl)
    have hrl := hr r (by simp)
    have hc : r[k]? = some r[k] := List.getElem?_eq_getElem (by omega)
    have e1 : column (r :: a) k = r[k] :: column a k := by
      unfold column; rw [List.filterMap_cons, hc]
    have e2 : ∀ z : List V, errors (r :: a) (v :: b) z = (v - dot r z) :: errors a b z := fun z => rfl
    rw [e1, e2, e2, dot_cons, dot_cons, dot_cons, dot_cons, ih, dot_bump r x k t r[k] (by omega) hc]
    ring

theorem dot_ones : ∀ (r : List V) (a : List (List V)), r.length = a.length → ∀ o : List V,
    o = a.map (fun _ => 1) → dot r o = r.sum
  | [], _, _, _, _ => by simp [dot]
  | _ :: _, [], h, _, _ => by simp at h
  | v :: r, w :: a, h, o, ho => by
    subst ho
    rw [List.map_cons, dot_cons, dot_ones r a (by simpa using h) _ rfl]; simp

theorem sum_zero_of_minimal [LinearOrder V] [IsStrictOrderedRing V] {d c : V}
    (h : ∀ t : V, 0 ≤ - 2 * t * d + t ^ 2 * c) (hc : 0 ≤ c) : d = 0 := by
  by_contra hd
  have hd2 : 0 < d ^ 2 := by positivity
  rcases hc.lt_or_eq with hc | hc
  · have := h (d / c)
    have e : -2 * (d / c) * d + (d / c) ^ 2 * c = - (d ^ 2 / c) := by
      field_simp; ring
    rw [e] at this
    have : 0 < d ^ 2 / c := by positivity
    linarith
  · have := h d
    rw [← hc] at this
    nlinarith

theorem dot_self_nonneg [LinearOrder V] [IsStrictOrderedRing V] : ∀ a : List V, 0 ≤ dot a a
  | [] => by simp [dot]
  | v :: a => by
    rw [dot_cons]
    have := dot_self_nonneg a
    nlinarith [mul_self_nonneg v]

theorem orthogonal_of_minimal [LinearOrder V] [IsStrictOrderedRing V] {n : Nat} {a : List (List V)} {b x : List V}
    (ha : ∀ r ∈ a, r.length = n) (hb : b.length = a.length) (hx : x.length = n)
    (h : ∀ y : List V, y.length = n → dot (errors a b x) (errors a b x) ≤ dot (errors a b y) (errors a b y))
    {k : Nat} (hk : k < n) : dot (errors a b x) (column a k) = 0 := by
  refine sum_zero_of_minimal (c := dot (column a k) (column a k)) ?_ (dot_self_nonneg _)
  intro t
  have := h (bump x k t) (by rw [length_bump, hx])
  rw [sq_bump n k hk x hx t a b ha hb] at this
  linarith

theorem dot_append_one (row cs : List V) (c : V) (h : row.length = cs.length) :
    dot (row ++ [1]) (cs ++ [c]) = dot row cs + c := by
  unfold dot
  rw [List.zipWith_append h, List.sum_append]; simp

theorem column_working (cv : List (List V)) (n : Nat) (h : ∀ r ∈ cv, r.length = n) :
    (∀ k, k < n → column (cv.map (fun r => r ++ [1])) k = column cv k) ∧
      column (cv.map (fun r => r ++ [1])) n = cv.map (fun _ => 1) := by
  induction cv with
  | nil => exact ⟨fun _ _ => rfl, rfl⟩
  | cons r cv ih =>
    obtain ⟨i1, i2⟩ := ih (fun q hq => h q (by simp [hq]))
    have hr := h r (by simp)
    constructor
    · intro k hk
      have := i1 k hk
      unfold column at this ⊢
      rw [List.map_cons, List.filterMap_cons, List.filterMap_cons, this, List.getElem?_append_left (by omega)]
    · unfold column at i2 ⊢
      rw [List.map_cons, List.filterMap_cons, i2, ← hr]
      simp

theorem column_minus (xs : List (List V)) (j : Nat) (x : List V) (hx : xs[j]? = some x) (m : Nat)
    (hm : xs.length = m) : ∀ (w tp : List (List V)), tp.length = w.length → (∀ r ∈ tp, r.length = m) →
    column (List.zipWith (fun row t => List.zipWith (fun v x => v - entry row x) t xs) w tp) j =
      errors w (column tp j) x
  | [], _, _, _ => by simp [column, errors]
  | _ :: _, [], h, _ => by simp at h
  | row :: w, t :: tp, h, ht => by
    have ih := column_minus xs j x hx m hm w tp (by simpa using h) (fun r hr => ht r (by simp [hr]))
    have hj : j < t.length := by
      rw [ht t (by simp), ← hm]; exact (List.getElem?_eq_some_iff.1 hx).1
    have e1 : t[j]? = some t[j] := List.getElem?_eq_getElem hj
    unfold column at ih ⊢
    rw [List.zipWith_cons_cons, List.filterMap_cons, List.getElem?_zipWith, hx, e1]
    dsimp only
    rw [ih, List.filterMap_cons, e1]
    rfl

theorem length_column : ∀ (tp : List (List V)) (m j : Nat), (∀ r ∈ tp, r.length = m) → j < m →
    (column tp j).length = tp.length
  | [], _, _, _, _ => rfl
  | t :: tp, m, j, h, hj => by
    have hjt : j < t.length := by rw [h t (by simp)]; exact hj
    have e1 : t[j]? = some t[j] := List.getElem?_eq_getElem hjt
    have := length_column tp m j (fun r hr => h r (by simp [hr])) hj
    unfold column at this ⊢
    rw [List.filterMap_cons, e1]
    simp [this]

theorem errors_working (cs : List V) (c : V) : ∀ (cv : List (List V)) (b : List V),
    (∀ r ∈ cv, r.length = cs.length) → errors (cv.map (fun r => r ++ [1])) b (cs ++ [c]) =
      List.zipWith (fun row v => v - (dot row cs + c)) cv b
  | [], _, _ => by simp [errors]
  | _ :: _, [], _ => by simp [errors]
  | r :: cv, v :: b, h => by
    have := errors_working cs c cv b (fun q hq => h q (by simp [hq]))
    unfold errors at this ⊢
    rw [List.map_cons, List.zipWith_cons_cons, List.zipWith_cons_cons, this, dot_append_one r cs c (h r (by simp))]

theorem dot_map_add (f g : List V → V) : ∀ (q : List V) (l : List (List V)),
    dot q (l.map (fun x => f x + g x)) = dot q (l.map f) + dot q (l.map g)
  | [], _ => by simp [dot]
  | _ :: _, [] => by simp [dot]
  | v :: q, x :: l => by
    simp only [List.map_cons, dot_cons, dot_map_add f g q l]; ring

theorem dot_map_mul (f : List V → V) (c : V) : ∀ (q : List V) (l : List (List V)),
    dot q (l.map (fun x => f x * c)) = dot q (l.map f) * c
  | [], _ => by simp [dot]
  | _ :: _, [] => by simp [dot]
  | v :: q, x :: l => by
    simp only [List.map_cons, dot_cons, dot_map_mul f c q l]; ring

theorem column_head : ∀ (l : List (List V)), (∀ r ∈ l, r ≠ []) → column l 0 = l.map (fun r => r.headD 0)
  | [], _ => rfl
  | [] :: _, h => absurd rfl (h [] (by simp))
  | (v :: r) :: l, h => by
    have := column_head l (fun q hq => h q (by simp [hq]))
    unfold column at this ⊢
    rw [List.filterMap_cons, this]; rfl

theorem column_tail (l : List (List V)) (k : Nat) : column l (k + 1) = column (l.map List.tail) k := by
  unfold column
  rw [List.filterMap_map]
  congr 1
  funext r
  simp

theorem dot_fit (q : List V) : ∀ (cs : List V) (l : List (List V)), (∀ r ∈ l, r.length = cs.length) →
    (∀ k, k < cs.length → dot q (column l k) = 0) → dot q (l.map (fun row => dot row cs)) = 0
  | [], l, _, _ => by
    have : (fun row : List V => dot row []) = fun row => (fun _ => (0 : V)) row * 0 := by
      funext row; simp [dot]
    rw [this, dot_map_mul]; simp
  | c :: cs, l, h, h0 => by
    have hne : ∀ r ∈ l, r ≠ [] := by
      intro r hr h1; have := h r hr; rw [h1] at this; simp at this
    have ih := dot_fit q cs (l.map List.tail)
      (by intro r hr
          obtain ⟨p, hp, rfl⟩ := List.mem_map.1 hr
          have := h p hp
          simp at this ⊢; omega)
      (by intro k hk
          have := h0 (k + 1) (by simpa using hk)
          rwa [column_tail] at this)
    have e : l.map (fun row => dot row (c :: cs)) = l.map (fun row => row.headD 0 * c + dot row.tail cs) := by
      refine List.map_congr_left ?_
      intro r hr
      cases r with
      | nil => exact absurd rfl (hne _ hr)
      | cons v r => rw [dot_cons]; rfl
    rw [e, dot_map_add, dot_map_mul, ← column_head l hne, h0 0 (by simp)]
    rw [List.map_map] at ih
    have ih' : dot q (l.map (fun row => dot row.tail cs)) = 0 := ih
    rw [ih']; ring

theorem dot_const (q : List V) (l : List (List V)) (hl : q.length = l.length) (c : V) :
    dot q (l.map (fun _ => c)) = q.sum * c := by
  have : (fun _ : List V => c) = fun row => (fun _ => (1 : V)) row * c := by funext row; simp
  rw [this, dot_map_mul, dot_ones q l hl _ rfl]

theorem dot_sub_left : ∀ (a b z : List V), a.length = b.length →
    dot (List.zipWith (· - ·) a b) z = dot a z - dot b z
  | [], [], _, _ => by simp [dot]
  | _ :: _, [], _, h => by simp at h
  | [], _ :: _, _, h => by simp at h
  | _ :: _, _ :: _, [], _ => by simp [dot]
  | v :: a, w :: b, u :: z, h => by
    rw [List.zipWith_cons_cons, dot_cons, dot_cons, dot_cons, dot_sub_left a b z (by simpa using h)]; ring

theorem eq_of_dot_self [LinearOrder V] [IsStrictOrderedRing V] : ∀ (a b : List V), a.length = b.length →
    dot (List.zipWith (· - ·) a b) (List.zipWith (· - ·) a b) = 0 → a = b
  | [], [], _, _ => rfl
  | _ :: _, [], h, _ => by simp at h
  | [], _ :: _, h, _ => by simp at h
  | v :: a, w :: b, h, h0 => by
    rw [List.zipWith_cons_cons, dot_cons] at h0
    have h1 := dot_self_nonneg (List.zipWith (· - ·) a b)
    have h2 := mul_self_nonneg (v - w)
    have h3 : (v - w) * (v - w) = 0 := by linarith
    have h4 : v - w = 0 := by simpa using h3
    rw [eq_of_dot_self a b (by simpa using h) (by linarith), sub_eq_zero.1 h4]

theorem sub_fits (cs cs' : List V) (c c' : V) : ∀ (l : List (List V)) (b : List V), b.length = l.length →
    List.zipWith (· - ·) (List.zipWith (fun row v => v - (dot row cs + c)) l b)
      (List.zipWith (fun row v => v - (dot row cs' + c')) l b) =
    l.map (fun row => (dot row cs' + c') + (dot row cs + c) * (-1))
  | [], _, _ => by simp
  | _ :: _, [], h => by simp at h
  | r :: l, v :: b, h => by
    simp only [List.zipWith_cons_cons, List.map_cons]
    rw [sub_fits cs cs' c c' l b (by simpa using h)]
    congr 1; ring

end

/-! ## Theorems -/

/-- C111: there is only one such part: the result depends on the data alone, not on the routine. -/
theorem C111_unique [Field V] [LinearOrder V] [IsStrictOrderedRing V] (controls : List (List V)) (width : Nat)
    (hc : ∀ r ∈ controls, r.length = width) (b r r' : List V) (hb : b.length = controls.length)
    (h : Residual controls width b r) (h' : Residual controls width b r') : r = r' := by
  obtain ⟨cs, c, hcs, hr⟩ := h.difference
  obtain ⟨cs', c', hcs', hr'⟩ := h'.difference
  have l1 : r.length = controls.length := by rw [hr, List.length_zipWith, hb, Nat.min_self]
  have l2 : r'.length = controls.length := by rw [hr', List.length_zipWith, hb, Nat.min_self]
  refine eq_of_dot_self r r' (by rw [l1, l2]) ?_
  have hz : List.zipWith (· - ·) r r' = controls.map (fun row => (dot row cs' + c') + (dot row cs + c) * (-1)) := by
    rw [hr, hr']; exact sub_fits cs cs' c c' controls b hb
  have key : ∀ q : List V, q.length = controls.length → q.sum = 0 →
      (∀ k, k < width → dot q (column controls k) = 0) → dot q (List.zipWith (· - ·) r r') = 0 := by
    intro q hq hs ho
    rw [hz, dot_map_add (fun row => dot row cs' + c') (fun row => (dot row cs + c) * (-1)),
      dot_map_mul (fun row => dot row cs + c), dot_map_add (fun row => dot row cs') (fun _ => c'),
      dot_map_add (fun row => dot row cs) (fun _ => c), dot_const q controls hq, dot_const q controls hq, hs,
      dot_fit q cs controls (fun x hx => by rw [hc x hx, hcs]) (fun k hk => ho k (by omega)),
      dot_fit q cs' controls (fun x hx => by rw [hc x hx, hcs']) (fun k hk => ho k (by omega))]
    ring
  rw [dot_sub_left r r' _ (by rw [l1, l2]), key r l1 h.zeroSum h.orthogonal, key r' l2 h'.zeroSum h'.orthogonal]
  ring

/-- C111: with a routine which keeps its contract, `residuals(toPredict, controlVars)` has the shape and
the names of `toPredict`, and each of its features is what is left of that feature of `toPredict` after the
part which depends linearly on the control variables. -/
theorem C111_residuals [Field V] [LinearOrder V] [IsStrictOrderedRing V]
    {lstsq : List (List V) → List (List V) → Res (List (List V))} (hl : LeastSquares lstsq) {tp cv s : Obj V}
    (ht : tp.WF) (hc : cv.WF) (hs : residuals lstsq tp cv = .ok s) :
    s.WF ∧ s.pts = tp.pts ∧ s.fts = tp.fts ∧
      ∀ j, j < tp.fts.len → Residual cv.data cv.fts.len (tp.vector .feature j) (s.vector .feature j) := by
  unfold residuals at hs
  split at hs
  · cases hs
  next hp =>
  split at hs
  · cases hs
  split at hs
  · cases hs
  obtain ⟨xs, hx, rfl⟩ := Res.map_ok.1 hs
  have hp : tp.pts.len = cv.pts.len := by simpa using hp
  have hw : ∀ r ∈ working cv, r.length = cv.fts.len + 1 := by
    intro r hr
    obtain ⟨q, hq, rfl⟩ := List.mem_map.1 hr
    simp [hc.cols q hq]
  have hwl : tp.data.length = (working cv).length := by
    rw [working, List.length_map, ht.rows, hc.rows, hp]
  obtain ⟨hxl, hmin⟩ := hl _ _ _ _ _ hw hwl ht.cols hx
  refine ⟨⟨?_, ?_, ht.pts, ht.fts⟩, rfl, rfl, ?_⟩
  · show (List.zipWith _ _ _).length = _
    rw [List.length_zipWith, ← hwl, Nat.min_self]; exact ht.rows
  · intro r hr
    obtain ⟨i, hi⟩ := List.mem_iff_getElem?.1 hr
    simp only [minusPred, List.getElem?_zipWith] at hi
    split at hi
    · next a b h1 h2 =>
      cases hi
      have := ht.cols _ (List.mem_of_getElem? h2)
      show (List.zipWith _ _ _).length = tp.fts.len
      rw [List.length_zipWith, hxl, this, Nat.min_self]
    · cases hi
  · intro j hj
    have hxj := List.getElem?_eq_getElem (l := xs) (i := j) (by omega)
    obtain ⟨hx1, hx2⟩ := hmin j _ hxj
    have hcol : (minusPred (working cv) xs tp).vector .feature j =
        errors (working cv) (column tp.data j) xs[j] :=
      column_minus xs j _ hxj _ hxl (working cv) tp.data hwl ht.cols
    rw [hcol]
    have hbl : (column tp.data j).length = (working cv).length := by
      rw [length_column tp.data _ j ht.cols hj, hwl]
    have hort := fun k hk => orthogonal_of_minimal (k := k) hw hbl hx1 hx2 hk
    obtain ⟨w1, w2⟩ := column_working cv.data cv.fts.len hc.cols
    have hel : (errors (working cv) (column tp.data j) xs[j]).length = cv.data.length := by
      unfold errors
      rw [List.length_zipWith, hbl, Nat.min_self, working, List.length_map]
    refine ⟨?_, ?_, ?_⟩
    · have hne : xs[j] ≠ [] := by
        intro h; rw [h] at hx1; simp at hx1
      refine ⟨xs[j].dropLast, xs[j].getLast hne, by rw [List.length_dropLast, hx1]; omega, ?_⟩
      conv_lhs => rw [← List.dropLast_append_getLast hne]
      exact errors_working _ _ cv.data _ (fun r hr => by rw [hc.cols r hr, List.length_dropLast, hx1]; omega)
    · have := hort cv.fts.len (by omega)
      rw [show column (working cv) cv.fts.len = _ from w2] at this
      rw [dot_ones _ cv.data hel _ rfl] at this
      exact this
    · intro k hk
      have := hort k (by omega)
      rw [show column (working cv) k = _ from w1 k hk] at this
      exact this

/-- C111: what is refused, and that nothing else is unless the routine fails. -/
theorem C111_refused [Field V] (lstsq : List (List V) → List (List V) → Res (List (List V))) (tp cv : Obj V) :
    (tp.pts.len ≠ cv.pts.len → residuals lstsq tp cv = .error .InvalidArgumentValueCombination) ∧
    (tp.pts.len = cv.pts.len → tp.pts.len = 0 ∨ tp.fts.len = 0 ∨ cv.fts.len = 0 →
      residuals lstsq tp cv = .error .InvalidArgumentValue) ∧
    (tp.pts.len = cv.pts.len → 0 < tp.pts.len → 0 < tp.fts.len → 0 < cv.fts.len →
      ∀ e, residuals lstsq tp cv = .error e → ∃ a, a.length = cv.data.length ∧ lstsq a tp.data = .error e) := by
  unfold residuals
  refine ⟨fun h => if_pos h, ?_, ?_⟩
  · intro h h0
    rw [if_neg (by simpa using h)]
    split
    · rfl
    · rw [if_pos (by omega)]
  · intro h h1 h2 h3 e he
    rw [if_neg (by simpa using h), if_neg (by omega), if_neg (by omega)] at he
    refine ⟨working cv, by simp [working], ?_⟩
    cases hx : lstsq (working cv) tp.data with
    | error e' => rw [hx] at he; cases he; rfl
    | ok xs => rw [hx] at he; cases he

theorem dot_zeros [Field V] : ∀ (row : List V) (n : Nat), dot row (List.replicate n 0) = 0
  | [], _ => by simp [dot]
  | _ :: _, 0 => by simp [dot]
  | v :: row, n + 1 => by rw [List.replicate_succ, dot_cons, dot_zeros row n]; ring

theorem minus_zeros [Field V] (n : Nat) : ∀ (l : List (List V)) (r : List V), r.length = l.length →
    List.zipWith (fun row v => v - (dot row (List.replicate n 0) + 0)) l r = r
  | [], [], _ => rfl
  | [], _ :: _, h => by simp at h
  | _ :: _, [], h => by simp at h
  | a :: l, v :: r, h => by
    rw [List.zipWith_cons_cons, minus_zeros n l r (by simpa using h), dot_zeros]; simp

/-- C111: the residuals of residuals by the same control variables are these residuals. -/
theorem C111_again [Field V] [LinearOrder V] [IsStrictOrderedRing V] (controls : List (List V)) (width : Nat)
    (hc : ∀ r ∈ controls, r.length = width) (b r r' : List V) (hb : b.length = controls.length)
    (h : Residual controls width b r) (h' : Residual controls width r r') : r' = r := by
  obtain ⟨cs, c, -, hr⟩ := h.difference
  have hl : r.length = controls.length := by rw [hr, List.length_zipWith, hb, Nat.min_self]
  refine C111_unique controls width hc r r' r hl h' ⟨⟨List.replicate width 0, 0, by simp, ?_⟩, h.zeroSum, h.orthogonal⟩
  exact (minus_zeros width controls r hl).symm

/-! ## Examples -/

/-- The values 1, 3, 2 over the control variable 0, 1, 2: the residuals are -1/2, 1, -1/2. -/
example : Residual (V := ℚ) [[0], [1], [2]] 1 [1, 3, 2] [-1/2, 1, -1/2] := by
  refine ⟨⟨[1/2], 3/2, rfl, by decide +kernel⟩, by decide +kernel, ?_⟩
  intro k hk
  have : k = 0 := by omega
  subst this
  decide +kernel

/-- Any others which fit these data are the same. -/
example (r : List ℚ) (h : Residual (V := ℚ) [[0], [1], [2]] 1 [1, 3, 2] r) : r = [-1/2, 1, -1/2] := by
  refine C111_unique [[0], [1], [2]] 1 (by simp) [1, 3, 2] r _ rfl h ?_
  refine ⟨⟨[1/2], 3/2, rfl, by decide +kernel⟩, by decide +kernel, ?_⟩
  intro k hk
  have : k = 0 := by omega
  subst this
  decide +kernel

/-- A routine which knows one answer. -/
def one (a b : List (List ℚ)) : Res (List (List ℚ)) :=
  if a = [[0, 1], [1, 1], [2, 1]] ∧ b = [[1], [3], [2]] then .ok [[1/2, 3/2]] else .error .ValueError

/-- It keeps the contract. -/
theorem one_least : LeastSquares one := by
  intro n m a b xs ha _ hb h
  unfold one at h
  split at h
  · next hab =>
    obtain ⟨rfl, rfl⟩ := hab
    cases h
    have hn : n = 2 := (ha _ (List.mem_cons_self ..)).symm
    have hm : m = 1 := (hb _ (List.mem_cons_self ..)).symm
    subst hn; subst hm
    refine ⟨rfl, ?_⟩
    intro j x hx
    cases j with
    | succ j => simp at hx
    | zero =>
      simp only [List.getElem?_cons_zero, Option.some.injEq] at hx
      subst hx
      refine ⟨rfl, ?_⟩
      intro y hy
      match y, hy with
      | [p, q], _ =>
        simp [dot, errors, column]
        nlinarith [sq_nonneg (q - 3/2), sq_nonneg (p + q - 2), sq_nonneg (2 * p + q - 5/2)]
  · cases h

/-- With it, the residuals of an object. -/
example : (residuals one ⟨[[1], [3], [2]], ⟨3, none⟩, ⟨1, none⟩⟩ ⟨[[0], [1], [2]], ⟨3, none⟩, ⟨1, none⟩⟩).map (·.data) =
    .ok [[-1/2], [1], [-1/2]] := by decide +kernel

end Residuals
end Nimble
