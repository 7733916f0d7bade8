import Verif.Model.Solve
import Verif.Props.Keep
import Verif.Props.Similarities
import Mathlib.Algebra.Field.Basic
import Mathlib.Data.Rat.Defs

/-!
# C108: solutions of linear equations
-/

namespace Nimble
namespace Solve
variable {V : Type}

/-! ## Specification -/

/-- The left side of an equation: the values of a point of `A` times the unknowns. -/
def combine [Mul V] [Add V] [Zero V] (row x : List V) : V := (List.zipWith (· * ·) row x).sum

/-- Rows of the given width. -/
def IsTable (n : Nat) (rows : List (List V)) : Prop := ∀ r ∈ rows, r.length = n

/-- The values of a vector, whichever way it lies. -/
def values (b : Obj V) : List V := b.data.flatten

/-- What is assumed of the routines for `solve`: whatever they return for a square `A` and a column `b` with
as many values is a column which satisfies the equations. -/
def SolvesExactly [Mul V] [Add V] [Zero V] (lin : List (List V) → List (List V) → Res (List (List V))) : Prop :=
  ∀ (n : Nat) (a : List (List V)) (b x : List (List V)), a.length = n → IsTable n a → b.length = n → IsTable 1 b →
    lin a b = .ok x → x.length = n ∧ IsTable 1 x ∧ a.map (fun r => combine r x.flatten) = b.flatten

/-- The sum of the squares of the errors of the equations. -/
def squaredError [Field V] (a : List (List V)) (b x : List V) : V :=
  (List.zipWith (fun r v => (v - combine r x) ^ 2) a b).sum

/-- What is assumed of the routines for least squares: no other vector has smaller errors. -/
def SolvesLeastSquares [Field V] [LE V] (lin : List (List V) → List (List V) → Res (List (List V))) : Prop :=
  ∀ (n : Nat) (a : List (List V)) (b x : List (List V)), IsTable n a → b.length = a.length → IsTable 1 b →
    lin a b = .ok x → x.length = n ∧ IsTable 1 x ∧
      ∀ y : List V, y.length = n → squaredError a b.flatten x.flatten ≤ squaredError a b.flatten y

/-- `b` is a vector with as many values as `A` has points. -/
def IsRightSide (a b : Obj V) : Prop :=
  (b.pts.len = 1 ∧ b.fts.len = a.pts.len) ∨ (b.fts.len = 1 ∧ b.pts.len = a.pts.len)

/-! ## Lemmas -/

theorem column_flatten : ∀ {x : List (List V)}, IsTable 1 x → x.filterMap (·[0]?) = x.flatten
  | [], _ => rfl
  | r :: x, h => by
    have hr := h r (by simp)
    obtain ⟨v, rfl⟩ := List.length_eq_one_iff.1 hr
    simp [column_flatten (x := x) (fun q hq => h q (by simp [hq]))]

theorem column_length : ∀ {x : List (List V)}, IsTable 1 x → x.flatten.length = x.length
  | [], _ => rfl
  | r :: x, h => by
    have hr := h r (by simp)
    simp [column_length (x := x) (fun q hq => h q (by simp [hq])), hr]; omega

theorem row_transposed_flatten (row : List V) :
    ((List.range row.length).map (fun j => [row].filterMap (·[j]?))).flatten = row := by
  induction row with
  | nil => rfl
  | cons a row ih =>
    rw [List.length_cons, List.range_succ_eq_map, List.map_cons, List.map_map, List.flatten_cons]
    have e : (fun j => [a :: row].filterMap (·[j]?)) ∘ Nat.succ = fun j => [row].filterMap (·[j]?) := by
      funext j
      simp [Function.comp_def, List.filterMap_cons]
    rw [e, ih]
    simp

/-- A right side which is accepted is turned into a column with the same values. -/
theorem validation_ok {solver : Solver} {a b : Obj V} (hb : b.WF) (hsq : solver = .solve → a.pts.len = a.fts.len)
    (hp : 0 < a.pts.len) (hr : IsRightSide a b) : ∃ c, validation solver a b = .ok c ∧ c.data.length = a.pts.len ∧ IsTable 1 c.data ∧
      c.data.flatten = values b := by
  unfold validation
  rw [if_neg (by intro h; exact h.2 (hsq h.1)), if_neg (by rcases hr with h | h <;> omega)]
  unfold asColumn
  by_cases h1 : b.pts.len = 1 ∧ b.fts.len > 1
  · rw [if_pos h1]
    have ha : a.pts.len = b.fts.len := by rcases hr with h | h <;> omega
    rw [if_neg (by omega)]
    obtain ⟨t, t1, t2, t3, t4, t5, -⟩ := transpose_spec hb
    have hc : checkColumn a t = .ok t := by unfold checkColumn; rw [if_neg (by omega)]
    refine ⟨t, by simp only [t1, bind, Except.bind, hc], by rw [t2.rows]; omega, ?_, ?_⟩
    · intro r hr; rw [t2.cols r hr]; omega
    · have hrows := hb.rows
      rw [h1.1] at hrows
      obtain ⟨row, hrow⟩ := List.length_eq_one_iff.1 hrows
      have hl : row.length = b.fts.len := hb.cols row (by rw [hrow]; simp)
      rw [t3, values, hrow, ← hl]
      rw [show [row].flatten = row by simp]
      exact row_transposed_flatten row
  · rw [if_neg h1]
    have hf : b.fts.len = 1 ∧ b.pts.len = a.pts.len := by
      unfold IsRightSide at hr
      omega
    have hc : checkColumn a b = .ok b := by
      unfold checkColumn; rw [if_neg]; omega
    refine ⟨b, by simp only [bind, Except.bind, hc], by rw [hb.rows]; exact hf.2, ?_, rfl⟩
    intro r hr
    rw [hb.cols r hr]
    exact hf.1

/-- The object made of a column of `n` results. -/
theorem result_ok {a : Obj V} (ha : a.WF) {x : List (List V)} (hx : x.length = a.fts.len) (h1 : IsTable 1 x) :
    ∃ s, Obj.makeFrom (Obj.transposeData 1 x) 0 none (some a.fts.getNames) = .ok s ∧ s.WF ∧ s.pts.len = 1 ∧
      s.fts.getNames = a.fts.getNames ∧ s.vector .point 0 = x.flatten ∧ s.fts.len = a.fts.len := by
  have hd : Obj.transposeData 1 x = [x.flatten] := by
    simp [Obj.transposeData, column_flatten h1]
  have hl : x.flatten.length = a.fts.len := by rw [column_length h1, hx]
  obtain ⟨s, hs⟩ := make_good (data := [x.flatten]) (nP := 1) (nF := a.fts.len) (pn := none)
    (fn := some a.fts.getNames) trivial ⟨ha.fts.length_getNames, ha.fts.reduceOption_nodup⟩
  obtain ⟨w, d, p, f, -, -, -, n, -⟩ := make_inv hs rfl (by simp [hl])
  refine ⟨s, ?_, w, p, by simpa using n, by simp [Obj.vector, d], f⟩
  rw [hd]
  show Obj.make [x.flatten] 1 x.flatten.length none _ = _
  rw [hl, hs]

/-! ## C108 -/

/-- C108. What `solve` returns is one point, with the features of `A` under their names, whose values satisfy the
equation of every point of `A`; the right side may be one point or one feature. -/
theorem C108_solve [Mul V] [Add V] [Zero V] {lin : List (List V) → List (List V) → Res (List (List V))}
    (hlin : SolvesExactly lin) {a b s : Obj V} (ha : a.WF) (hb : b.WF) (hp : 0 < a.pts.len)
    (hr : IsRightSide a b) (hs : solve lin a b = .ok s) :
    s.WF ∧ s.pts.len = 1 ∧ s.fts.len = a.fts.len ∧ s.fts.getNames = a.fts.getNames ∧
    ∀ i, i < a.pts.len → (values b)[i]? = some (combine (a.vector .point i) (s.vector .point 0)) := by
  have hsq : a.pts.len = a.fts.len := by
    by_contra hne
    have : solve lin a b = .error .InvalidArgumentValue := by
      unfold solve backend validation
      rw [if_pos ⟨rfl, hne⟩]; rfl
    rw [this] at hs; cases hs
  obtain ⟨c, c1, c2, c3, c4⟩ := validation_ok (solver := .solve) hb (fun _ => hsq) hp hr
  unfold solve backend at hs
  simp only [c1, bind, Except.bind] at hs
  cases hx : lin a.data c.data with
  | error e => rw [hx] at hs; cases hs
  | ok x =>
    rw [hx] at hs
    obtain ⟨x1, x2, x3⟩ := hlin a.pts.len a.data c.data x ha.rows (fun r h => (ha.cols r h).trans hsq.symm) c2 c3 hx
    obtain ⟨s', s1, s2, s3, s4, s5, s6⟩ := result_ok ha (x1.trans hsq) x2
    have : s' = s := Except.ok.inj (s1.symm.trans hs)
    subst this
    refine ⟨s2, s3, s6, s4, ?_⟩
    intro i hi
    obtain ⟨r, r1, r2, -⟩ := ha.vector_point hi
    rw [← c4, ← x3, s5, r2]
    simp [r1]

/-- C108. What `leastSquaresSolution` returns is one point, with the features of `A` under their names, and no
other values have a smaller sum of squared errors. -/
theorem C108_leastSquares [Field V] [LE V] {lin : List (List V) → List (List V) → Res (List (List V))}
    (hlin : SolvesLeastSquares lin) {a b s : Obj V} (ha : a.WF) (hb : b.WF) (hp : 0 < a.pts.len)
    (hr : IsRightSide a b) (hs : leastSquaresSolution lin a b = .ok s) :
    s.WF ∧ s.pts.len = 1 ∧ s.fts.len = a.fts.len ∧ s.fts.getNames = a.fts.getNames ∧
    ∀ y : List V, y.length = a.fts.len →
      squaredError a.data (values b) (s.vector .point 0) ≤ squaredError a.data (values b) y := by
  obtain ⟨c, c1, c2, c3, c4⟩ := validation_ok (solver := .leastSquaresSolution) (a := a) hb (fun h => by cases h) hp hr
  unfold leastSquaresSolution backend at hs
  simp only [c1, bind, Except.bind] at hs
  cases hx : lin a.data c.data with
  | error e => rw [hx] at hs; cases hs
  | ok x =>
    rw [hx] at hs
    obtain ⟨x1, x2, x3⟩ := hlin a.fts.len a.data c.data x (fun r h => ha.cols r h) (c2.trans ha.rows.symm) c3 hx
    obtain ⟨s', s1, s2, s3, s4, s5, s6⟩ := result_ok ha x1 x2
    have : s' = s := Except.ok.inj (s1.symm.trans hs)
    subst this
    refine ⟨s2, s3, s6, s4, ?_⟩
    intro y hy
    rw [s5, ← c4]
    exact x3 y hy

/-- C108. A square `A` and a right side of its size are passed on, and what the routine raises is raised: the
functions themselves refuse no equations which fit. -/
theorem C108_passed_on {lin : List (List V) → List (List V) → Res (List (List V))} {solver : Solver} {a b : Obj V}
    (hb : b.WF) (hp : 0 < a.pts.len) (hsq : solver = .solve → a.pts.len = a.fts.len) (hr : IsRightSide a b) :
    ∃ c, c.length = a.pts.len ∧ IsTable 1 c ∧ c.flatten = values b ∧
      ∀ e, lin a.data c = .error e → backend solver lin a b = .error e := by
  obtain ⟨c, c1, c2, c3, c4⟩ := validation_ok (solver := solver) hb hsq hp hr
  refine ⟨c.data, c2, c3, c4, ?_⟩
  intro e he
  simp only [backend, c1, he, bind, Except.bind]

/-- C108. `solve` refuses an `A` which is not square; both refuse a right side which is not a vector, and a vector
whose number of values is not the number of points of `A`.  Missing: a right side of a single value, see
`C108_single_violated`. -/
theorem C108_refused_partial (lin : List (List V) → List (List V) → Res (List (List V))) (a b : Obj V) :
    (a.pts.len ≠ a.fts.len → solve lin a b = .error .InvalidArgumentValue) ∧
    ∀ solver, (solver = .solve → a.pts.len = a.fts.len) →
      (b.pts.len ≠ 1 → b.fts.len ≠ 1 → backend solver lin a b = .error .InvalidArgumentValue) ∧
      (b.pts.len = 1 → 1 < b.fts.len → b.fts.len ≠ a.pts.len →
        backend solver lin a b = .error .InvalidArgumentValueCombination) ∧
      (b.fts.len = 1 → 1 < b.pts.len → b.pts.len ≠ a.pts.len →
        backend solver lin a b = .error .InvalidArgumentValueCombination) := by
  refine ⟨?_, ?_⟩
  · intro h
    unfold solve backend validation
    rw [if_pos ⟨rfl, h⟩]; rfl
  · intro solver hsq
    refine ⟨?_, ?_, ?_⟩
    · intro h1 h2
      unfold backend validation
      rw [if_neg (fun h => h.2 (hsq h.1)), if_pos ⟨h1, h2⟩]; rfl
    · intro h1 h2 h3
      unfold backend validation asColumn
      rw [if_neg (fun h => h.2 (hsq h.1)), if_neg (by omega), if_pos ⟨h1, h2⟩, if_pos (by omega)]; rfl
    · intro h1 h2 h3
      unfold backend validation asColumn
      rw [if_neg (fun h => h.2 (hsq h.1)), if_neg (by omega), if_neg (by omega)]
      simp only [bind, Except.bind]
      unfold checkColumn
      rw [if_pos ⟨h2, h1, by omega⟩]

/-- C108 is violated by the code: a right side of one value is not compared with the number of points of `A` at all
and reaches the routine of scipy, whatever `A` is. -/
theorem C108_single_violated (lin : List (List V) → List (List V) → Res (List (List V))) (v : V) (a : Obj V)
    (hsq : a.pts.len = a.fts.len) (e : Err) (he : lin a.data [[v]] = .error e) :
    solve lin a ⟨[[v]], ⟨1, none⟩, ⟨1, none⟩⟩ = .error e := by
  have : validation .solve a ⟨[[v]], ⟨1, none⟩, ⟨1, none⟩⟩ = .ok ⟨[[v]], ⟨1, none⟩, ⟨1, none⟩⟩ := by
    unfold validation
    rw [if_neg (fun h => h.2 hsq), if_neg (by simp)]
    rfl
  simp only [solve, backend, this, he, bind, Except.bind]

/-- C108 is violated by the code: the documentation promises a result of the shape of `b`, but for a `b` of one
feature and several points the result is one point. -/
theorem C108_shape_violated [Mul V] [Add V] [Zero V] {lin : List (List V) → List (List V) → Res (List (List V))}
    (hlin : SolvesExactly lin) {a b s : Obj V} (ha : a.WF) (hb : b.WF) (hp : 1 < a.pts.len) (h1 : b.fts.len = 1)
    (h2 : b.pts.len = a.pts.len) (hs : solve lin a b = .ok s) :
    ¬ (s.pts.len = b.pts.len ∧ s.fts.len = b.fts.len) := by
  have := C108_solve hlin ha hb (by omega) (Or.inr ⟨h1, h2⟩) hs
  omega

/-! ## Concrete cases -/

open Classical in
/-- There are routines as assumed, which find a solution whenever there is one. -/
theorem solvesExactly_exists [Mul V] [Add V] [Zero V] :
    ∃ lin : List (List V) → List (List V) → Res (List (List V)), SolvesExactly lin ∧
      ∀ a b, (∃ x : List (List V), x.length = a.length ∧ IsTable 1 x ∧ a.map (fun r => combine r x.flatten) = b.flatten) →
        ∃ x, lin a b = .ok x := by
  refine ⟨fun a b => if h : ∃ x : List (List V), x.length = a.length ∧ IsTable 1 x ∧
      a.map (fun r => combine r x.flatten) = b.flatten then .ok h.choose else .error .ValueError, ?_, ?_⟩
  · intro n a b x hn _ _ _ hx
    dsimp only at hx
    split at hx
    · rename_i h
      cases hx
      exact ⟨h.choose_spec.1.trans hn, h.choose_spec.2⟩
    · cases hx
  · intro a b h
    exact ⟨_, dif_pos h⟩

open Classical in
/-- There are routines as assumed for least squares; for one unknown in `x = 1, x = 3` the result is 2. -/
theorem C108_leastSquares_example :
    ∃ (lin : List (List ℚ) → List (List ℚ) → Res (List (List ℚ))) (s : Obj ℚ), SolvesLeastSquares lin ∧
      leastSquaresSolution lin ⟨[[1], [1]], ⟨2, none⟩, ⟨1, none⟩⟩ ⟨[[1], [3]], ⟨2, none⟩, ⟨1, none⟩⟩ = .ok s ∧
      s.vector .point 0 = [2] := by
  refine ⟨fun a b => if a = [[1], [1]] ∧ b = [[1], [3]] then .ok [[2]] else .error .ValueError, ?_⟩
  refine ⟨⟨[[2]], ⟨1, none⟩, ⟨1, some ⟨namedPairs 0 [none], [none]⟩⟩⟩, ?_, ?_, rfl⟩
  · intro n a b x hn _ _ hx
    dsimp only at hx
    split at hx
    · rename_i h
      obtain ⟨rfl, rfl⟩ := h
      have : x = [[2]] := (Except.ok.inj hx).symm
      subst this
      have h1 : n = 1 := (hn [1] (by simp)).symm
      subst h1
      refine ⟨rfl, by simp [IsTable], ?_⟩
      intro y hy
      obtain ⟨v, rfl⟩ := List.length_eq_one_iff.1 hy
      simp only [squaredError, combine, List.flatten_cons, List.flatten_nil, List.zipWith_cons_cons,
        List.zipWith_nil_left, List.zipWith_nil_right, List.sum_cons, List.sum_nil, List.cons_append, List.nil_append]
      nlinarith [sq_nonneg (v - 2)]
    · cases hx
  · have hv : validation .leastSquaresSolution (⟨[[1], [1]], ⟨2, none⟩, ⟨1, none⟩⟩ : Obj ℚ)
        ⟨[[1], [3]], ⟨2, none⟩, ⟨1, none⟩⟩ = .ok ⟨[[1], [3]], ⟨2, none⟩, ⟨1, none⟩⟩ := by decide +kernel
    simp only [leastSquaresSolution, backend, hv, bind, Except.bind, and_self, if_true]
    rfl

/-- `2x + y = 5, x - y = 1`. -/
def exA : Obj ℚ := ⟨[[2, 1], [1, -1]], ⟨2, none⟩, ⟨2, some ⟨namedPairs 0 [some "x", some "y"], [some "x", some "y"]⟩⟩⟩
def exB : Obj ℚ := ⟨[[5, 1]], ⟨1, none⟩, ⟨2, none⟩⟩

theorem exA_wf : exA.WF := ⟨rfl, by simp [exA], none_ok _, mk_ok rfl (by simp [List.reduceOption])⟩
theorem exB_wf : exB.WF := ⟨rfl, by simp [exB], none_ok _, none_ok _⟩

/-- C108. A case in which the hypotheses are met and the result is the solution. -/
theorem C108_example : ∃ (lin : List (List ℚ) → List (List ℚ) → Res (List (List ℚ))) (s : Obj ℚ), SolvesExactly lin ∧
    solve lin exA exB = .ok s ∧ s.fts.getNames = [some "x", some "y"] ∧
    ∃ x y : ℚ, s.vector .point 0 = [x, y] ∧ 2 * x + y = 5 ∧ x - y = 1 := by
  obtain ⟨lin, l1, l2⟩ := solvesExactly_exists (V := ℚ)
  have hr : IsRightSide exA exB := Or.inl ⟨rfl, rfl⟩
  obtain ⟨x, hx⟩ := l2 exA.data [[5], [1]] ⟨[[2], [1]], rfl, by simp [IsTable], by decide +kernel⟩
  have hv : validation .solve exA exB = .ok ⟨[[5], [1]], ⟨2, none⟩, ⟨1, none⟩⟩ := by decide +kernel
  obtain ⟨x1, x2, -⟩ := l1 2 exA.data [[5], [1]] x rfl (by simp [IsTable, exA]) rfl (by simp [IsTable]) hx
  obtain ⟨s, s1, -⟩ := result_ok exA_wf (x := x) x1 x2
  have hs : solve lin exA exB = .ok s := by
    simp only [solve, backend, hv, hx, bind, Except.bind]
    exact s1
  obtain ⟨h1, h2, h3, h4, h5⟩ := C108_solve l1 exA_wf exB_wf (by decide) hr hs
  refine ⟨lin, s, l1, hs, h4, ?_⟩
  have hl : (s.vector .point 0).length = 2 := (h1.length_vector .point (i := 0) (by show 0 < s.pts.len; omega)).trans h3
  obtain ⟨x, y, e⟩ : ∃ x y, s.vector .point 0 = [x, y] := by
    match hm : s.vector .point 0 with
    | [x, y] => exact ⟨x, y, rfl⟩
    | [] => rw [hm] at hl; simp at hl
    | [_] => rw [hm] at hl; simp at hl
    | _ :: _ :: _ :: _ => rw [hm] at hl; simp at hl
  refine ⟨x, y, e, ?_, ?_⟩
  · have := h5 0 (by decide)
    rw [e] at this
    simp [values, exA, exB, combine, Obj.vector] at this
    exact this.symm
  · have := h5 1 (by decide)
    rw [e] at this
    simp [values, exA, exB, combine, Obj.vector] at this
    rw [this]; ring

end Solve
end Nimble
