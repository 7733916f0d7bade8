import Verif.Model.MatMul
import Verif.Props.Binary
import Mathlib.LinearAlgebra.Matrix.ZPow

/-!
# C39, C56: matrix multiplication and powers

The specification is Mathlib's matrix product and integer power.
-/

namespace Nimble
namespace MatMul
open Obj
variable {V : Type}

/-! ## Specification -/

/-- The object has shape `m × n` and shows the matrix `A`. -/
structure Shows {m n : Nat} (o : Obj V) (A : Matrix (Fin m) (Fin n) V) : Prop where
  points : o.pts.len = m
  features : o.fts.len = n
  elem : ∀ (i : Fin m) (j : Fin n), o.elem? i j = some (A i j)

/-- The rows show the matrix `A`. -/
structure RowsShow {m n : Nat} (d : List (List V)) (A : Matrix (Fin m) (Fin n) V) : Prop where
  rows : d.length = m
  cols : ∀ r ∈ d, r.length = n
  elem : ∀ (i : Fin m) (j : Fin n), (d[(i : Nat)]?).bind (·[(j : Nat)]?) = some (A i j)

/-- What is assumed of the linear algebra routine behind `nimble.calculate.inverse` (scipy): it
inverts every invertible matrix exactly and raises "singular", reported as `InvalidArgumentValue`,
for the others. -/
def InverseSpec [Field V] (linInv : List (List V) → Res (List (List V))) : Prop :=
  ∀ (n : Nat) (d : List (List V)) (A : Matrix (Fin n) (Fin n) V), 0 < n → RowsShow d A →
    (IsUnit A.det → ∃ d', linInv d = .ok d' ∧ RowsShow d' A⁻¹) ∧
    (¬ IsUnit A.det → linInv d = .error .InvalidArgumentValue)

/-! ## Lemmas -/

theorem exists_shows {o : Obj V} (h : o.WF) :
    ∃ A : Matrix (Fin o.pts.len) (Fin o.fts.len) V, Shows o A := by
  have hrow : ∀ i : Fin o.pts.len, ∃ r, o.data[(i : Nat)]? = some r ∧ r.length = o.fts.len := by
    intro i
    have hi : (i : Nat) < o.data.length := by rw [h.rows]; exact i.2
    exact ⟨_, List.getElem?_eq_getElem hi, h.cols _ (List.getElem_mem hi)⟩
  have : ∀ (i : Fin o.pts.len) (j : Fin o.fts.len), ∃ v, o.elem? i j = some v := by
    intro i j
    obtain ⟨r, h1, h2⟩ := hrow i
    have hj : (j : Nat) < r.length := by rw [h2]; exact j.2
    exact ⟨r[(j : Nat)], by simp [Obj.elem?, h1, hj]⟩
  choose f hf using this
  exact ⟨f, rfl, rfl, hf⟩

theorem Shows.unique {m n : Nat} {o : Obj V} {A B : Matrix (Fin m) (Fin n) V} (ha : Shows o A)
    (hb : Shows o B) : A = B := by
  funext i j
  exact Option.some.inj ((ha.elem i j).symm.trans (hb.elem i j))

private theorem Shows.rowsShow {m n : Nat} {o : Obj V} {A : Matrix (Fin m) (Fin n) V} (h : o.WF)
    (ha : Shows o A) : RowsShow o.data A where
  rows := by rw [h.rows, ha.points]
  cols := fun r hr => by rw [h.cols r hr, ha.features]
  elem := ha.elem

private theorem makeFrom_none {d : List (List V)} {m n : Nat} (hm : 0 < m) (hr : d.length = m)
    (hc : ∀ r ∈ d, r.length = n) :
    makeFrom d 0 none none = .ok ⟨d, ⟨m, none⟩, ⟨n, none⟩⟩ := by
  cases d with
  | nil => simp at hr; omega
  | cons r rest =>
    simp only [makeFrom, make, AxisSt.init, bind, Except.bind, pure, Except.pure]
    rw [hr, hc r (by simp)]

private theorem foldl_sum [AddCommMonoid V] (f : Nat → V) (n : Nat) :
    (List.range n).foldl (fun t k => t + f k) 0 = ∑ k : Fin n, f k := by
  rw [Fin.sum_univ_eq_sum_range f n]
  induction n with
  | zero => simp
  | succ n ih => rw [List.range_succ, List.foldl_append, ih, Finset.sum_range_succ]; rfl

private theorem at'_of_shows [Zero V] {m n : Nat} {o : Obj V} {A : Matrix (Fin m) (Fin n) V}
    (h : Shows o A) (i : Fin m) (j : Fin n) : o.at' i j = A i j := by
  unfold at'; rw [h.elem]; rfl

private theorem dotLoop_eq [Semiring V] {m k n : Nat} {l r : Obj V} {A : Matrix (Fin m) (Fin k) V}
    {B : Matrix (Fin k) (Fin n) V} (ha : Shows l A) (hb : Shows r B) (i : Fin m) (j : Fin n) :
    dotLoop l r i j = (A * B) i j := by
  unfold dotLoop
  rw [foldl_sum, hb.points, Matrix.mul_apply]
  subst_vars
  apply Finset.sum_congr rfl
  intro x _
  rw [at'_of_shows ha i x, at'_of_shows hb x j]

private theorem tableShows {m n : Nat} (f : Nat → Nat → V) (A : Matrix (Fin m) (Fin n) V)
    (h : ∀ (i : Fin m) (j : Fin n), f i j = A i j) :
    RowsShow ((List.range m).map (fun i => (List.range n).map (fun j => f i j))) A where
  rows := by simp
  cols := by intro r hr; simp only [List.mem_map, List.mem_range] at hr; obtain ⟨i, _, rfl⟩ := hr; simp
  elem := by
    intro i j
    simp [h i j]

private theorem giveNames_ok {n : Nat} {src : AxisSt} (h : src.Ok) (hn : src.len = n) :
    ∃ a, giveNames ⟨n, none⟩ src = .ok a ∧ a.Ok ∧ a.len = n ∧ a.getNames = src.getNames ∧
      a.tbl.isSome = src.tbl.isSome := by
  unfold giveNames
  cases hT : src.tbl with
  | none =>
    refine ⟨_, rfl, none_ok _, rfl, ?_, rfl⟩
    simp [AxisSt.getNames, hT, hn]
  | some t =>
    have hk := h t hT
    have hl : t.inv.length = n := by rw [hk.length_inv, hn]
    refine ⟨_, by simp only [setNames_list_eq]; rw [if_pos ⟨hl, hk.reduceOption_nodup⟩],
      mk_ok hl hk.reduceOption_nodup, rfl, ?_, rfl⟩
    rw [AxisSt.getNames_of_some hT]; rfl

private theorem setSame_ok {n : Nat} {tbl : Option NameTable} {src : AxisSt} (h : src.Ok)
    (hn : src.len = n) :
    ∃ a, AxisSt.setNames ⟨n, tbl⟩ (asAssign src.getNamesNoGen) = .ok a ∧ a.Ok ∧ a.len = n ∧
      a.getNames = src.getNames := by
  cases hT : src.tbl with
  | none =>
    refine ⟨⟨n, none⟩, by simp [AxisSt.getNamesNoGen, hT, asAssign, AxisSt.setNames], none_ok _, rfl, ?_⟩
    simp [AxisSt.getNames, hT, hn]
  | some t =>
    have hk := h t hT
    have hl : t.inv.length = n := by rw [hk.length_inv, hn]
    refine ⟨⟨n, some ⟨namedPairs 0 t.inv, t.inv⟩⟩, ?_, mk_ok hl hk.reduceOption_nodup, rfl, ?_⟩
    · simp only [AxisSt.getNamesNoGen, hT, asAssign, Option.map_some, setNames_list_eq]
      rw [if_pos ⟨hl, hk.reduceOption_nodup⟩]
    · rw [AxisSt.getNames_of_some hT]; rfl

/-- The conditions under which `left @ right` is accepted. -/
def Multipliable (l r : Obj V) : Prop :=
  l.pts.len ≠ 0 ∧ l.fts.len ≠ 0 ∧ r.fts.len ≠ 0 ∧ l.fts.len = r.pts.len ∧
    NamesAgree l.fts.getNames r.pts.getNames

private theorem matmul_ok [Semiring V] {l r : Obj V} (hl : l.WF) (hr : r.WF) {m k n : Nat}
    {A : Matrix (Fin m) (Fin k) V} {B : Matrix (Fin k) (Fin n) V} (ha : Shows l A) (hb : Shows r B)
    (hc : Multipliable l r) :
    ∃ s, l.matmul r = .ok s ∧ s.WF ∧ Shows s (A * B) ∧ s.pts.getNames = l.pts.getNames ∧
      s.fts.getNames = r.fts.getNames ∧ s.pts.tbl.isSome = l.pts.tbl.isSome ∧
      s.fts.tbl.isSome = r.fts.tbl.isSome := by
  obtain ⟨h1, h2, h3, h4, h5⟩ := hc
  have hT := tableShows (fun i j => dotLoop l r i j) (A * B) (dotLoop_eq ha hb)
  obtain ⟨rfl, rfl⟩ := And.intro ha.points hb.features
  have hmk := makeFrom_none (d := matmulData l r) (m := l.pts.len) (n := r.fts.len) (by omega)
    hT.rows hT.cols
  obtain ⟨a, a1, a2, a3, a4, a5⟩ := giveNames_ok hl.pts rfl
  obtain ⟨b, b1, b2, b3, b4, b5⟩ := giveNames_ok hr.fts rfl
  refine ⟨⟨matmulData l r, a, b⟩, ?_, ⟨?_, ?_, a2, b2⟩, ⟨?_, ?_, ?_⟩, a4, b4, a5, b5⟩
  · unfold matmul
    rw [if_neg (by omega), if_neg (by omega), if_neg (by omega), if_neg]
    · simp only [hmk, a1, b1, bind, Except.bind, pure, Except.pure]
    · simp [(namesEqualCheck_iff hl.fts hr.pts).2 h5]
  · rw [a3]; exact hT.rows
  · rw [b3]; exact hT.cols
  · exact a3
  · exact b3
  · exact hT.elem

/-! ## C56: matrix multiplication -/

/-- `left @ right` is accepted exactly when neither object is empty, the sizes fit and the feature
names of the left object do not contradict the point names of the right one. -/
theorem C56_accepted_iff [Semiring V] {l r : Obj V} (hl : l.WF) (hr : r.WF) :
    (∃ s, l.matmul r = .ok s) ↔ Multipliable l r := by
  constructor
  · rintro ⟨s, hs⟩
    unfold matmul at hs
    split at hs
    · cases hs
    · split at hs
      · cases hs
      · split at hs
        · cases hs
        · split at hs
          · cases hs
          · rename_i h1 h2 h3 h4
            refine ⟨by omega, by omega, by omega, by omega, ?_⟩
            apply (namesEqualCheck_iff hl.fts hr.pts).1
            simpa using h4
  · intro h
    obtain ⟨A, ha⟩ := exists_shows hl
    obtain ⟨B, hb⟩ := exists_shows hr
    have hk : l.fts.len = r.pts.len := h.2.2.2.1
    have hb' : ∃ B' : Matrix (Fin l.fts.len) (Fin r.fts.len) V, Shows r B' := by
      rw [hk]; exact ⟨B, hb⟩
    obtain ⟨B', hb'⟩ := hb'
    obtain ⟨s, hs, -⟩ := matmul_ok hl hr ha hb' h
    exact ⟨s, hs⟩

/-- The result of `left @ right` shows the matrix product, its points carry the names of the left
object's points and its features those of the right object's features. -/
theorem C56_product [Semiring V] {l r s : Obj V} (hl : l.WF) (hr : r.WF) {m k n : Nat}
    {A : Matrix (Fin m) (Fin k) V} {B : Matrix (Fin k) (Fin n) V} (ha : Shows l A) (hb : Shows r B)
    (hs : l.matmul r = .ok s) :
    Shows s (A * B) ∧ s.pts.getNames = l.pts.getNames ∧ s.fts.getNames = r.fts.getNames ∧ s.WF := by
  obtain ⟨s', h1, h2, h3, h4, h5, -, -⟩ := matmul_ok hl hr ha hb ((C56_accepted_iff hl hr).1 ⟨s, hs⟩)
  have : s = s' := Except.ok.inj (hs.symm.trans h1)
  subst this
  exact ⟨h3, h4, h5, h2⟩

/-- Multiplication is associative: when both groupings are accepted, they give the same elements
and the same names. -/
theorem C56_associative [Semiring V] {a b c ab bc x y : Obj V} (ha : a.WF) (hb : b.WF) (hc : c.WF)
    (h1 : a.matmul b = .ok ab) (h2 : ab.matmul c = .ok x) (h3 : b.matmul c = .ok bc)
    (h4 : a.matmul bc = .ok y) : x.Same y := by
  obtain ⟨A, sa⟩ := exists_shows ha
  obtain ⟨B, sb⟩ := exists_shows hb
  obtain ⟨C, sc⟩ := exists_shows hc
  have e1 := ((C56_accepted_iff ha hb).1 ⟨_, h1⟩).2.2.2.1
  have e2 := ((C56_accepted_iff hb hc).1 ⟨_, h3⟩).2.2.2.1
  obtain ⟨B', sb'⟩ : ∃ B' : Matrix (Fin a.fts.len) (Fin b.fts.len) V, Shows b B' := by
    rw [e1]; exact ⟨B, sb⟩
  obtain ⟨C', sc'⟩ : ∃ C' : Matrix (Fin b.fts.len) (Fin c.fts.len) V, Shows c C' := by
    rw [e2]; exact ⟨C, sc⟩
  obtain ⟨p1, q1, r1, w1⟩ := C56_product ha hb sa sb' h1
  obtain ⟨p2, q2, r2, w2⟩ := C56_product w1 hc p1 sc' h2
  obtain ⟨p3, q3, r3, w3⟩ := C56_product hb hc sb' sc' h3
  obtain ⟨p4, q4, r4, w4⟩ := C56_product ha w3 sa p3 h4
  rw [Matrix.mul_assoc] at p2
  refine ⟨by rw [p2.points, p4.points], by rw [p2.features, p4.features], ?_, by rw [q2, q1, q4],
    by rw [r2, r4, r3]⟩
  apply List.ext_getElem?
  intro i
  by_cases hi : i < a.pts.len
  · have h1 : i < x.data.length := by rw [w2.rows, p2.points]; exact hi
    have h2 : i < y.data.length := by rw [w4.rows, p4.points]; exact hi
    rw [List.getElem?_eq_getElem h1, List.getElem?_eq_getElem h2]
    congr 1
    have l1 : x.data[i].length = c.fts.len := by
      rw [w2.cols _ (List.getElem_mem h1), p2.features]
    have l2 : y.data[i].length = c.fts.len := by
      rw [w4.cols _ (List.getElem_mem h2), p4.features]
    apply List.ext_getElem?
    intro j
    by_cases hj : j < c.fts.len
    · have e1 := p2.elem ⟨i, hi⟩ ⟨j, hj⟩
      have e2 := p4.elem ⟨i, hi⟩ ⟨j, hj⟩
      simp only [Obj.elem?, List.getElem?_eq_getElem h1, List.getElem?_eq_getElem h2,
        Option.bind_some] at e1 e2
      rw [e1, e2]
    · rw [List.getElem?_eq_none (by omega), List.getElem?_eq_none (by omega)]
  · rw [List.getElem?_eq_none (by rw [w2.rows, p2.points]; omega),
      List.getElem?_eq_none (by rw [w4.rows, p4.points]; omega)]

/-! ## C39: matrix powers -/

private theorem powLoop_ok [Semiring V] {n : Nat} (hn : 0 < n) {op : Obj V} (hw : op.WF)
    (hp : op.pts.tbl = none) (hf : op.fts.tbl = none) {A : Matrix (Fin n) (Fin n) V}
    (ha : Shows op A) : ∀ (k : Nat) (ret : Obj V) (B : Matrix (Fin n) (Fin n) V), ret.WF →
      ret.pts.tbl = none → ret.fts.tbl = none → Shows ret B →
      ∃ s, powLoop op k ret = .ok s ∧ s.WF ∧ Shows s (B * A ^ k) := by
  intro k
  induction k with
  | zero => intro ret B h1 _ _ h4; exact ⟨ret, rfl, h1, by simpa using h4⟩
  | succ k ih =>
    intro ret B h1 h2 h3 h4
    have hm : Multipliable ret op := by
      refine ⟨by rw [h4.points]; omega, by rw [h4.features]; omega, by rw [ha.features]; omega,
        by rw [h4.features, ha.points], ?_⟩
      exact namesAgree_default_right (default_of_none hp)
    obtain ⟨s, s1, s2, s3, -, -, s6, s7⟩ := matmul_ok h1 hw h4 ha hm
    have e1 : s.pts.tbl = none := by rw [h2] at s6; simpa using s6
    have e2 : s.fts.tbl = none := by rw [hf] at s7; simpa using s7
    obtain ⟨s', t1, t2, t3⟩ := ih s (B * A) s2 e1 e2 s3
    refine ⟨s', ?_, t2, ?_⟩
    · unfold powLoop; rw [s1]; exact t1
    · rw [pow_succ', ← Matrix.mul_assoc]; exact t3

private theorem identity_ok [Semiring V] {n : Nat} (hn : 0 < n) :
    ∃ o : Obj V, identity n = .ok o ∧ o.WF ∧ o.pts.tbl = none ∧ o.fts.tbl = none ∧
      Shows o (1 : Matrix (Fin n) (Fin n) V) := by
  have hT := tableShows (m := n) (n := n) (fun i j => if i = j then (1 : V) else 0) 1 (by
    intro i j
    rw [Matrix.one_apply]
    by_cases h : i = j
    · simp [h]
    · rw [if_neg h, if_neg (fun h' => h (Fin.ext h'))])
  refine ⟨⟨_, ⟨n, none⟩, ⟨n, none⟩⟩, by unfold identity; rw [if_neg (by omega)]; exact makeFrom_none hn hT.rows hT.cols,
    ⟨hT.rows, hT.cols, none_ok _, none_ok _⟩, rfl, rfl, rfl, rfl, hT.elem⟩

private theorem finish [Semiring V] {n : Nat} {o s : Obj V} (ho : o.WF) (hp : o.pts.len = n)
    (hf : o.fts.len = n) (hs : s.WF) {B : Matrix (Fin n) (Fin n) V} (hb : Shows s B) :
    ∃ a b, s.pts.setNames (asAssign o.pts.getNamesNoGen) = .ok a ∧
      s.fts.setNames (asAssign o.fts.getNamesNoGen) = .ok b ∧
      a.getNames = o.pts.getNames ∧ b.getNames = o.fts.getNames ∧
      Obj.WF { s with pts := a, fts := b } ∧ Shows { s with pts := a, fts := b } B := by
  obtain ⟨a, a1, a2, a3, a4⟩ := setSame_ok (tbl := s.pts.tbl) ho.pts hp
  obtain ⟨b, b1, b2, b3, b4⟩ := setSame_ok (tbl := s.fts.tbl) ho.fts hf
  refine ⟨a, b, by rw [← a1, ← hb.points], by rw [← b1, ← hb.features], a4, b4,
    ⟨?_, ?_, a2, b2⟩, a3, b3, hb.elem⟩
  · show s.data.length = a.len; rw [hs.rows, a3, hb.points]
  · intro r hr; show r.length = b.len; rw [hs.cols r hr, b3, hb.features]

private theorem pow_ok [Field V] {linInv : List (List V) → Res (List (List V))}
    (hi : InverseSpec linInv) {o : Obj V} (ho : o.WF) {n : Nat} (hn : 0 < n)
    {A : Matrix (Fin n) (Fin n) V} (ha : Shows o A) (p : Int) (hp : 0 ≤ p ∨ IsUnit A.det) :
    ∃ r, o.matrixPower linInv p = .ok r ∧ r.WF ∧ Shows r (A ^ p) ∧
      r.pts.getNames = o.pts.getNames ∧ r.fts.getNames = o.fts.getNames := by
  have hop : ∃ (op : Obj V) (M : Matrix (Fin n) (Fin n) V), powOperand linInv o p = .ok op ∧ op.WF ∧
      op.pts.tbl = none ∧ op.fts.tbl = none ∧ Shows op M ∧ M * M ^ (p.natAbs - 1) = A ^ p := by
    unfold powOperand
    by_cases h0 : p = 0
    · subst h0
      obtain ⟨op, h1, h2, h3, h4, h5⟩ := identity_ok (V := V) hn
      exact ⟨op, 1, by rw [if_pos rfl, ha.points, h1], h2, h3, h4, h5, by simp⟩
    · by_cases h1 : p > 0
      · refine ⟨⟨o.data, ⟨o.pts.len, none⟩, ⟨o.fts.len, none⟩⟩, A, by rw [if_neg h0, if_pos h1], ⟨ho.rows, ho.cols, none_ok _, none_ok _⟩, rfl, rfl,
          ⟨ha.points, ha.features, ha.elem⟩, ?_⟩
        obtain ⟨q, rfl⟩ := Int.eq_ofNat_of_zero_le (le_of_lt h1)
        have hq : q ≠ 0 := by rintro rfl; simp at h0
        rw [Int.natAbs_natCast, zpow_natCast, ← pow_succ', Nat.sub_add_cancel (by omega)]
      · have hu : IsUnit A.det := by
          rcases hp with h | h
          · omega
          · exact h
        obtain ⟨d, d1, d2⟩ := (hi n o.data A hn (ha.rowsShow ho)).1 hu
        have hmk := makeFrom_none hn d2.rows d2.cols
        have hinv : inverse linInv o = .ok ⟨d, ⟨n, none⟩, ⟨n, none⟩⟩ := by
          unfold inverse
          rw [if_neg (by rw [ha.points]; omega), if_neg (by rw [ha.points, ha.features]; omega)]
          simp only [d1, bind, Except.bind]; exact hmk
        refine ⟨⟨d, ⟨n, none⟩, ⟨n, none⟩⟩, A⁻¹, by rw [if_neg h0, if_neg h1, hinv],
          ⟨d2.rows, d2.cols, none_ok _, none_ok _⟩, rfl, rfl, ⟨rfl, rfl, d2.elem⟩, ?_⟩
        obtain ⟨q, hq⟩ := Int.eq_ofNat_of_zero_le (show 0 ≤ -p by omega)
        have hp' : p = -(q : Int) := by omega
        subst hp'
        rw [Matrix.zpow_neg_natCast, ← Matrix.inv_pow', Int.natAbs_neg, Int.natAbs_natCast, ← pow_succ',
          Nat.sub_add_cancel (by omega)]
  obtain ⟨op, M, h1, h2, h3, h4, h5, h6⟩ := hop
  obtain ⟨s, s1, s2, s3⟩ := powLoop_ok hn h2 h3 h4 h5 (p.natAbs - 1) op M h2 h3 h4 h5
  rw [h6] at s3
  obtain ⟨a, b, e1, e2, e3, e4, e5, e6⟩ := finish ho ha.points ha.features s2 s3
  refine ⟨_, ?_, e5, e6, e3, e4⟩
  unfold matrixPower
  rw [if_neg (by rw [ha.points, ha.features]; simp)]
  simp only [h1, s1, e1, e2, bind, Except.bind, pure, Except.pure]

/-- A square non-empty object can be raised to every power that exists: to the powers `≥ 0` always,
to a negative power exactly when it is invertible. -/
theorem C39_accepted_iff [Field V] {linInv : List (List V) → Res (List (List V))}
    (hi : InverseSpec linInv) {o : Obj V} (ho : o.WF) {n : Nat} (hn : 0 < n)
    {A : Matrix (Fin n) (Fin n) V} (ha : Shows o A) (p : Int) :
    (∃ r, o.matrixPower linInv p = .ok r) ↔ (0 ≤ p ∨ IsUnit A.det) := by
  constructor
  · rintro ⟨r, hr⟩
    by_contra hc
    obtain ⟨hc1, hc2⟩ := not_or.1 hc
    have hs := (hi n o.data A hn (ha.rowsShow ho)).2 hc2
    unfold matrixPower at hr
    rw [if_neg (by rw [ha.points, ha.features]; simp), Res.bind_ok] at hr
    obtain ⟨op, h1, -⟩ := hr
    unfold powOperand at h1
    rw [if_neg (by omega), if_neg (by omega)] at h1
    unfold inverse at h1
    rw [if_neg (by rw [ha.points]; omega), if_neg (by rw [ha.points, ha.features]; omega), hs] at h1
    cases h1
  · intro h
    obtain ⟨r, hr, -⟩ := pow_ok hi ho hn ha p h
    exact ⟨r, hr⟩

/-- A non-square object is refused. -/
theorem C39_nonsquare_refused [Field V] (linInv : List (List V) → Res (List (List V))) (o : Obj V)
    (p : Int) (h : o.pts.len ≠ o.fts.len) : o.matrixPower linInv p = .error .ImproperObjectAction := by
  unfold matrixPower
  rw [if_pos h]

/-- `matrixPower(p)` shows the `p`-th power of the matrix (the product of `p` copies, the identity
for 0, copies of the inverse for negative powers), with the names of the object. -/
theorem C39_power [Field V] {linInv : List (List V) → Res (List (List V))}
    (hi : InverseSpec linInv) {o r : Obj V} (ho : o.WF) {n : Nat} (hn : 0 < n)
    {A : Matrix (Fin n) (Fin n) V} (ha : Shows o A) (p : Int) (hr : o.matrixPower linInv p = .ok r) :
    Shows r (A ^ p) ∧ r.pts.getNames = o.pts.getNames ∧ r.fts.getNames = o.fts.getNames ∧ r.WF := by
  obtain ⟨r', h1, h2, h3, h4, h5⟩ := pow_ok hi ho hn ha p ((C39_accepted_iff hi ho hn ha p).1 ⟨r, hr⟩)
  have : r = r' := Except.ok.inj (hr.symm.trans h1)
  subst this
  exact ⟨h3, h4, h5, h2⟩

/-- Powers add: the `(p+q)`-th power is the product of the `p`-th and the `q`-th, whenever these
exist. -/
theorem C39_powers_add [Field V] {linInv : List (List V) → Res (List (List V))}
    (hi : InverseSpec linInv) {o rp rq : Obj V} (ho : o.WF) {n : Nat} (hn : 0 < n)
    (hsq : o.pts.len = n ∧ o.fts.len = n) (p q : Int)
    (h1 : o.matrixPower linInv p = .ok rp) (h2 : o.matrixPower linInv q = .ok rq) :
    ∃ (r : Obj V) (P Q : Matrix (Fin n) (Fin n) V), o.matrixPower linInv (p + q) = .ok r ∧
      Shows rp P ∧ Shows rq Q ∧ Shows r (P * Q) := by
  obtain ⟨A, ha⟩ : ∃ A : Matrix (Fin n) (Fin n) V, Shows o A := by
    obtain ⟨A, ha⟩ := exists_shows ho
    obtain ⟨rfl, h⟩ := hsq
    have : ∃ A : Matrix (Fin o.pts.len) (Fin o.fts.len) V, Shows o A := ⟨A, ha⟩
    rwa [h] at this
  have a1 := (C39_accepted_iff hi ho hn ha p).1 ⟨_, h1⟩
  have a2 := (C39_accepted_iff hi ho hn ha q).1 ⟨_, h2⟩
  have a3 : 0 ≤ p + q ∨ IsUnit A.det := by
    rcases a1 with a1 | a1
    · rcases a2 with a2 | a2
      · left; omega
      · exact Or.inr a2
    · exact Or.inr a1
  obtain ⟨r, hr⟩ := (C39_accepted_iff hi ho hn ha (p + q)).2 a3
  refine ⟨r, A ^ p, A ^ q, hr, (C39_power hi ho hn ha p h1).1, (C39_power hi ho hn ha q h2).1, ?_⟩
  have := (C39_power hi ho hn ha (p + q) hr).1
  have e : A ^ (p + q) = A ^ p * A ^ q := by
    rcases a1 with a1 | a1
    · rcases a2 with a2 | a2
      · exact Matrix.zpow_add_of_nonneg a1 a2
      · exact Matrix.zpow_add a2 p q
    · exact Matrix.zpow_add a1 p q
  rwa [e] at this

/-! ## Non-vacuity and witnesses -/

/-- The square matrix a list of rows shows. -/
private noncomputable def matOf [Field V] (d : List (List V)) : Matrix (Fin d.length) (Fin d.length) V :=
  fun i j => ((d[(i : Nat)]?).bind (·[(j : Nat)]?)).getD 0

open Classical in
/-- A routine as assumed of scipy exists. -/
theorem inverseSpec_exists [Field V] :
    ∃ linInv : List (List V) → Res (List (List V)), InverseSpec linInv := by
  refine ⟨fun d => if IsUnit (matOf d).det then
      .ok ((List.range d.length).map (fun i => (List.range d.length).map (fun j =>
        if h : i < d.length ∧ j < d.length then (matOf d)⁻¹ ⟨i, h.1⟩ ⟨j, h.2⟩ else 0)))
    else .error .InvalidArgumentValue, ?_⟩
  intro n d A _ h
  obtain rfl := h.rows
  have e : matOf d = A := by
    funext i j
    unfold matOf
    rw [h.elem]; rfl
  constructor
  · intro hu
    refine ⟨_, if_pos (by rw [e]; exact hu), ?_⟩
    apply tableShows
    intro i j
    rw [dif_pos ⟨i.2, j.2⟩, e]
  · intro hu
    exact if_neg (by rw [e]; exact hu)

/-- A 2×2 object with names. -/
def exSq : Obj Rat := ⟨[[1, 1], [0, 2]], ⟨2, some ⟨[("a", 0), ("b", 1)], [some "a", some "b"]⟩⟩,
  ⟨2, some ⟨[("x", 0)], [some "x", none]⟩⟩⟩

theorem exSq_wf : exSq.WF where
  rows := rfl
  cols := by decide
  pts := mk_ok (n := 2) (l := [some "a", some "b"]) rfl (by decide)
  fts := mk_ok (n := 2) (l := [some "x", none]) rfl (by decide)

theorem exSq_shows : Shows exSq !![1, 1; 0, 2] := by
  refine ⟨rfl, rfl, ?_⟩
  intro i j
  fin_cases i <;> fin_cases j <;> rfl

/-- The hypotheses of `C39_power` are met, for a negative power too. -/
example : ∃ (linInv : List (List Rat) → Res (List (List Rat))) (r : Obj Rat),
    InverseSpec linInv ∧ exSq.matrixPower linInv (-3) = .ok r := by
  obtain ⟨f, hf⟩ := inverseSpec_exists (V := Rat)
  obtain ⟨r, hr⟩ := (C39_accepted_iff hf exSq_wf (by decide) exSq_shows (-3)).2 (Or.inr (by
    rw [Matrix.det_fin_two_of]; norm_num))
  exact ⟨f, r, hf, hr⟩

/-- The third power, computed. -/
theorem C39_example : (exSq.matrixPower (fun _ => .error .RuntimeError) 3).map
    (fun r => (r.data, r.pts.getNames, r.fts.getNames))
    = .ok ([[1, 7], [0, 8]], [some "a", some "b"], [some "x", none]) := by decide +kernel

/-- A column with an unnamed first and a named second point. -/
def exCol : Obj Rat := ⟨[[1], [2]], ⟨2, some ⟨[("y", 1)], [none, some "y"]⟩⟩, ⟨1, some ⟨[("z", 0)], [some "z"]⟩⟩⟩

/-- Hypotheses of `C56_product`: the object times itself is refused (its feature name `x` meets the
point name `a`), times the column it is accepted. -/
theorem C56_example :
    (exSq.matmul exSq).map (fun r => r.data) = .error .InvalidArgumentValue ∧
    (exSq.matmul exCol).map (fun r => (r.data, r.pts.getNames, r.fts.getNames))
      = .ok ([[3], [4]], [some "a", some "b"], [some "z"]) := by decide +kernel

/-- An empty square object (0×0) has a first power but no other power: the power 0 and every power
above 1 raise, although the 0×0 matrix has all powers. -/
theorem C39_empty_violated (p : Int) :
    (∃ r, matrixPower (fun _ => .error .RuntimeError) (⟨[], ⟨0, none⟩, ⟨0, none⟩⟩ : Obj Rat) p = .ok r)
      ↔ p = 1 ∨ p = -1 := by
  constructor
  · rintro ⟨r, h⟩
    by_contra hc
    obtain ⟨h1, h2⟩ := not_or.1 hc
    by_cases h0 : p = 0
    · subst h0
      revert h
      simp [matrixPower, powOperand, identity, bind, Except.bind]
    · obtain ⟨k, hk⟩ : ∃ k, p.natAbs - 1 = k + 1 := ⟨p.natAbs - 2, by omega⟩
      have hop : powOperand (fun _ => .error .RuntimeError) (⟨[], ⟨0, none⟩, ⟨0, none⟩⟩ : Obj Rat) p
          = .ok ⟨[], ⟨0, none⟩, ⟨0, none⟩⟩ := by
        unfold powOperand
        rw [if_neg h0]
        split
        · rfl
        · rfl
      unfold matrixPower at h
      rw [if_neg (by simp), hop, hk] at h
      simp [powLoop, matmul, bind, Except.bind] at h
  · rintro (rfl | rfl)
    · exact ⟨_, rfl⟩
    · exact ⟨_, rfl⟩

end MatMul
end Nimble
