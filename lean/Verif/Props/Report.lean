import Verif.Model.Report
import Verif.Props.Calculate
import Verif.Props.AxisStats
import Mathlib.Tactic.FieldSimp
import Mathlib.Tactic.Ring

/-!
# C107: `report` of an object
-/

namespace Nimble
namespace Report

/-! ## Specification -/

/-- How many elements of the whole object satisfy `test`. -/
def howMany (test : Option ℚ → Bool) (o : Obj (Option ℚ)) : Nat := (o.data.flatten.filter test).length

/-- The proportion of the elements of the whole object which satisfy `test`. -/
def proportion (test : Option ℚ → Bool) (o : Obj (Option ℚ)) : ℚ := howMany test o / o.data.flatten.length

/-- The dimensions fit to the two dimensional object which holds the data. -/
structure Fits (h : HObj (Option ℚ)) : Prop where
  two : 2 ≤ h.dims.length
  points : h.dims.head? = some h.obj.pts.len
  features : h.dims.tail.prod = h.obj.fts.len

/-! ## Lemmas -/

theorem filterMap_col_cons (r : List (Option ℚ)) (d : List (List (Option ℚ))) (j : Nat) :
    (r :: d).filterMap (·[j]?) = (r[j]?).toList ++ d.filterMap (·[j]?) := by
  cases h : r[j]? <;> simp [List.filterMap_cons, h]

theorem sum_row (test : Option ℚ → Bool) : ∀ r : List (Option ℚ),
    ((List.range r.length).map (fun j => ((r[j]?).toList.filter test).length)).sum = (r.filter test).length
  | [] => rfl
  | a :: r => by
    rw [List.length_cons, List.range_succ_eq_map, List.map_cons, List.sum_cons, List.map_map]
    have := sum_row test r
    simp only [Function.comp_def, List.getElem?_cons_succ, List.getElem?_cons_zero] at this ⊢
    rw [this]
    cases h : test a <;> simp [List.filter_cons, h]; omega

theorem sum_columns (test : Option ℚ → Bool) (n : Nat) : ∀ d : List (List (Option ℚ)), (∀ r ∈ d, r.length = n) →
    ((List.range n).map (fun j => ((d.filterMap (·[j]?)).filter test).length)).sum =
      (d.flatten.filter test).length
  | [], _ => by simp
  | r :: d, h => by
    have ih := sum_columns test n d (fun q hq => h q (by simp [hq]))
    have hr := sum_row test r
    rw [h r (by simp)] at hr
    simp only [filterMap_col_cons, List.filter_append, List.length_append, List.flatten_cons]
    rw [List.sum_map_add, ih, hr]

theorem length_flatten_wf {V : Type} {o : Obj V} (h : o.WF) : o.data.flatten.length = o.pts.len * o.fts.len := by
  rw [List.length_flatten, ← h.rows]
  have : ∀ d : List (List V), (∀ r ∈ d, r.length = o.fts.len) → (d.map List.length).sum = d.length * o.fts.len := by
    intro d
    induction d with
    | nil => simp
    | cons r d ih =>
      intro hd
      rw [List.map_cons, List.sum_cons, ih (fun q hq => hd q (by simp [hq])), hd r (by simp), List.length_cons]
      ring
  exact this _ h.cols

theorem cast_sum (l : List Nat) : ((l.sum : Nat) : ℚ) = (l.map (fun n : Nat => (n : ℚ))).sum := by
  induction l with
  | nil => simp
  | cons a l ih => simp [ih]

theorem overall_row {func : List (Option ℚ) → ℚ} {o : Obj (Option ℚ)} (ho : o.WF) (hp : o.pts.len ≠ 0)
    (hf : o.fts.len ≠ 0) :
    overall func o = .ok (((List.range o.fts.len).map (fun j => func (o.vector .feature j) / (o.fts.len : ℚ))).sum) := by
  obtain ⟨r, h1, h2⟩ := AxisStats.calculate_total (f := fun v : AxView (Option ℚ) => .ok ⟨[func v.vals], none⟩)
    (ax := .feature) (w := 1) ho hp hf (fun i _ => ⟨_, rfl, rfl⟩)
  obtain ⟨idx, k1, k2, k3, k4, -⟩ := Obj.C51_calculate_values h1
  have hidx : idx = List.range o.fts.len := by
    rcases k1 with ⟨-, e⟩ | ⟨ids, e, -⟩
    · exact e
    · cases e
  subst hidx
  have hl : r.pts.len = 1 := by
    have : r.pts = ⟨1, none⟩ := h2
    rw [this]
  have hrows := k2.rows
  rw [hl] at hrows
  obtain ⟨row, hrow⟩ := List.length_eq_one_iff.1 hrows
  have hlen : row.length = o.fts.len := by
    rw [k2.cols row (by rw [hrow]; simp)]
    have : r.fts.len = (List.range o.fts.len).length := k3
    rw [this, List.length_range]
  have hv : row = (List.range o.fts.len).map (fun j => func (o.vector .feature j)) := by
    apply List.ext_getElem (by rw [hlen]; simp)
    intro j e1 e2
    obtain ⟨out, o1, o2⟩ := k4 j j (by rw [List.getElem?_range (by omega)])
    have o1' : out = ⟨[func (o.vector .feature j)], none⟩ := (Except.ok.inj o1).symm
    rw [o1'] at o2
    have : r.data.filterMap (·[j]?) = [func (o.vector .feature j)] := o2
    rw [hrow] at this
    simp only [List.filterMap_cons, List.filterMap_nil, List.getElem?_eq_getElem e1, List.cons.injEq, and_true] at this
    rw [this]
    simp
  unfold overall
  simp only [h1, bind, Except.bind, pure, Except.pure, hrow, List.flatten_cons, List.flatten_nil, List.append_nil, hv,
    List.map_map]
  rfl

theorem overall_proportion (test : Option ℚ → Bool) {o : Obj (Option ℚ)} (ho : o.WF) (hp : o.pts.len ≠ 0)
    (hf : o.fts.len ≠ 0) :
    overall (fun vs => ((vs.filter test).length : ℚ) / vs.length) o = .ok (proportion test o) := by
  rw [overall_row ho hp hf]
  congr 1
  have e : (List.range o.fts.len).map (fun j => (((o.vector .feature j).filter test).length : ℚ) /
      (o.vector .feature j).length / (o.fts.len : ℚ)) =
      (List.range o.fts.len).map (fun j => (((o.vector .feature j).filter test).length : ℚ) *
        (1 / (o.pts.len * o.fts.len : ℚ))) := by
    apply List.map_congr_left
    intro j hj
    have hl : (o.vector .feature j).length = o.pts.len := ho.length_vector .feature (List.mem_range.1 hj)
    rw [hl, div_div, mul_one_div]
  rw [e, List.sum_map_mul_right]
  have h1 := sum_columns test o.fts.len o.data ho.cols
  have h2 : ((List.range o.fts.len).map (fun j => (((o.vector .feature j).filter test).length : ℚ))).sum =
      (howMany test o : ℚ) := by
    unfold howMany
    rw [← h1, cast_sum, List.map_map]
    rfl
  rw [h2, proportion, length_flatten_wf ho, mul_one_div, Nat.cast_mul]

/-! ## C107 -/

/-- C107. For an object of any number of dimensions with elements, the report gives the number of all elements,
its dimensions, and the proportions of all elements which are zero and which are missing. -/
theorem C107_report {h : HObj (Option ℚ)} (ho : h.obj.WF) (hfit : Fits h) (hp : h.obj.pts.len ≠ 0)
    (hf : h.obj.fts.len ≠ 0) :
    ∃ l, report h = .ok l ∧
      l.map Prod.fst = (if h.dims.length = 2 then ["Values", "Points", "Features", "proportionZero", "proportionMissing"]
        else ["Values", "Dimensions", "proportionZero", "proportionMissing"]) ∧
      ("Values", Cell.num h.obj.data.flatten.length) ∈ l ∧
      (h.dims.length = 2 → ("Points", Cell.num h.obj.pts.len) ∈ l ∧ ("Features", Cell.num h.obj.fts.len) ∈ l) ∧
      (h.dims.length ≠ 2 → ("Dimensions", Cell.text (" x ".intercalate (h.dims.map toString))) ∈ l) ∧
      ("proportionZero", Cell.num (proportion (fun v => decide (v = some 0)) h.obj)) ∈ l ∧
      ("proportionMissing", Cell.num (proportion Option.isNone h.obj)) ∈ l := by
  have z := overall_proportion (fun v => decide (v = some 0)) ho hp hf
  have m := overall_proportion Option.isNone ho hp hf
  have z' : overall Stat.proportionZeroD h.obj = .ok (proportion (fun v => decide (v = some 0)) h.obj) := z
  have m' : overall Stat.proportionMissingD h.obj = .ok (proportion Option.isNone h.obj) := m
  have hval : h.dims.prod = h.obj.data.flatten.length := by
    rw [length_flatten_wf ho]
    obtain ⟨f1, f2, f3⟩ := hfit
    cases hd : h.dims with
    | nil => rw [hd] at f1; simp at f1
    | cons a ds =>
      rw [hd] at f2 f3
      simp only [List.head?_cons, Option.some.injEq, List.tail_cons] at f2 f3
      rw [List.prod_cons, f2, f3]
  refine ⟨_, by simp only [report, z', m', bind, Except.bind, pure, Except.pure]; rfl, ?_, ?_, ?_, ?_, ?_, ?_⟩
  · have := hfit.two
    by_cases h2 : h.dims.length = 2
    · rw [if_pos h2]; simp [size, h2]
    · rw [if_neg h2]
      have : h.dims.length > 2 := by omega
      simp [size, this]
  · rw [← hval]; simp [size]
  · intro h2
    obtain ⟨f1, f2, f3⟩ := hfit
    match hd : h.dims with
    | [a, b] =>
      rw [hd] at f2 f3
      simp only [List.head?_cons, Option.some.injEq, List.tail_cons, List.prod_cons, List.prod_nil, mul_one] at f2 f3
      simp [size, hd, f2, f3]
    | [] => rw [hd] at h2; simp at h2
    | [_] => rw [hd] at h2; simp at h2
    | _ :: _ :: _ :: _ => rw [hd] at h2; simp at h2
  · intro h2
    have := hfit.two
    have h3 : h.dims.length > 2 := by omega
    simp [size, h3, joined]
  · simp
  · simp

/-- C107. The proportions are between 0 and 1, and together not more than 1. -/
theorem C107_bounds {o : Obj (Option ℚ)} :
    0 ≤ proportion (fun v => decide (v = some 0)) o ∧ 0 ≤ proportion Option.isNone o ∧
    proportion (fun v => decide (v = some 0)) o + proportion Option.isNone o ≤ 1 := by
  have h0 : ∀ test, 0 ≤ proportion test o := fun test => div_nonneg (Nat.cast_nonneg _) (Nat.cast_nonneg _)
  refine ⟨h0 _, h0 _, ?_⟩
  have h : ∀ l : List (Option ℚ), (l.filter (fun v => decide (v = some 0))).length + (l.filter Option.isNone).length ≤
      l.length := by
    intro l
    induction l with
    | nil => simp
    | cons a l ih =>
      cases a with
      | none => simp [List.filter_cons]; omega
      | some x =>
        simp only [List.filter_cons, Option.isNone_some, Bool.false_eq_true, if_false, List.length_cons]
        split
        · simp only [List.length_cons]; omega
        · omega
  unfold proportion howMany
  rw [← add_div]
  by_cases hz : o.data.flatten.length = 0
  · rw [hz]; simp
  · rw [div_le_one (by exact_mod_cast Nat.pos_of_ne_zero hz)]
    exact_mod_cast h o.data.flatten

/-- C107. An object without points or features has no report. -/
theorem C107_empty {h : HObj (Option ℚ)} (he : h.obj.pts.len = 0 ∨ h.obj.fts.len = 0) :
    report h = .error .ImproperObjectAction := by
  have : ∀ func, overall func h.obj = .error .ImproperObjectAction := by
    intro func
    unfold overall Obj.calculate
    by_cases hp : h.obj.pts.len = 0
    · rw [if_pos hp]; rfl
    · rw [if_neg hp, if_pos (he.resolve_left hp)]; rfl
  simp only [report, this, bind, Except.bind]

/-- C107. The order of the points and of the features does not matter: objects with the same elements, however
they are arranged, have the same proportions. -/
theorem C107_arrangement {o q : Obj (Option ℚ)} (h : o.data.flatten.Perm q.data.flatten) (test : Option ℚ → Bool) :
    proportion test o = proportion test q := by
  unfold proportion howMany
  rw [(h.filter test).length_eq, h.length_eq]

/-- A case of `C107_report` in three dimensions. -/
def exH : HObj (Option ℚ) :=
  ⟨[2, 2, 2], ⟨[[some 0, some 1, none, some 0], [some 2, some 0, some 0, some 3]], ⟨2, none⟩, ⟨4, none⟩⟩⟩

example : exH.obj.WF ∧ Fits exH := by
  refine ⟨⟨rfl, by simp [exH], none_ok _, none_ok _⟩, ⟨by decide, rfl, rfl⟩⟩

example : (report exH).toOption = some [("Values", .num 8), ("Dimensions", .text "2 x 2 x 2"),
    ("proportionZero", .num (1 / 2)), ("proportionMissing", .num (1 / 8))] := by decide +kernel

end Report
end Nimble
