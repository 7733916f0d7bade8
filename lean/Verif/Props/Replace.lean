import Verif.Props.SetItem
import Verif.Model.Replace

/-!
# C57: `replaceRectangle` replaces exactly the rectangle
-/

namespace Nimble
variable {V : Type}

theorem getElem?_sliceAssign {row fill : List V} {s e : Nat} (hse : s ≤ e) (he : e ≤ row.length)
    (hf : fill.length = e - s) (j : Nat) :
    (sliceAssign row fill s e)[j]? = if s ≤ j ∧ j < e then fill[j - s]? else row[j]? := by
  unfold sliceAssign
  rw [Nat.max_eq_right hse]
  have hts : (row.take s).length = s := by simp; omega
  by_cases h1 : j < s
  · rw [if_neg (by omega), List.append_assoc, List.getElem?_append_left (by omega),
      List.getElem?_take, if_pos h1]
  · by_cases h2 : j < e
    · rw [if_pos ⟨by omega, h2⟩, List.append_assoc, List.getElem?_append_right (by omega), hts,
        List.getElem?_append_left (by omega)]
    · rw [if_neg (by omega), List.getElem?_append_right (by simp; omega), List.length_append, hts, hf,
        List.getElem?_drop]
      congr 1; omega

theorem length_sliceAssign {row fill : List V} {s e : Nat} (hse : s ≤ e) (he : e ≤ row.length)
    (hf : fill.length = e - s) : (sliceAssign row fill s e).length = row.length := by
  unfold sliceAssign
  rw [Nat.max_eq_right hse]
  simp only [List.length_append, List.length_take, List.length_drop, hf]
  omega

theorem replaceRows_spec {fs fe n : Nat} (hse : fs ≤ fe) (hen : fe ≤ n) (fills : List (List V)) (p : Nat)
    (data : List (List V)) (hlen : p + fills.length ≤ data.length) (hrow : ∀ r ∈ data, r.length = n)
    (hf : ∀ f ∈ fills, f.length = fe - fs) :
    (replaceRows fs fe p (fills.map some) data).2 = .ok () ∧
    (replaceRows fs fe p (fills.map some) data).1.length = data.length ∧
    (∀ r ∈ (replaceRows fs fe p (fills.map some) data).1, r.length = n) ∧
    ∀ i j, ((replaceRows fs fe p (fills.map some) data).1[i]?).bind (·[j]?) =
      if (p ≤ i ∧ i < p + fills.length) ∧ (fs ≤ j ∧ j < fe) then (fills[i - p]?).bind (·[j - fs]?)
      else (data[i]?).bind (·[j]?) := by
  induction fills generalizing p data with
  | nil =>
    refine ⟨rfl, rfl, hrow, fun i j => ?_⟩
    rw [if_neg (by simp)]
    rfl
  | cons f fills ih =>
    simp only [List.length_cons] at hlen
    have hp : p < data.length := by omega
    have hrl : (data[p]).length = n := hrow _ (List.getElem_mem hp)
    have hfl : f.length = fe - fs := hf f (by simp)
    have hstep : replaceRows fs fe p ((f :: fills).map some) data
        = replaceRows fs fe (p + 1) (fills.map some) (data.set p (sliceAssign data[p] f fs fe)) := by
      simp only [List.map_cons, replaceRows, List.getElem?_eq_getElem hp]
    rw [hstep]
    obtain ⟨i1, i2, i3, i4⟩ := ih (p + 1) (data.set p (sliceAssign data[p] f fs fe))
      (by rw [List.length_set]; omega)
      (by
        intro r hr
        rcases List.mem_or_eq_of_mem_set hr with h | h
        · exact hrow r h
        · rw [h, length_sliceAssign hse (by omega) hfl]; exact hrl)
      (fun g hg => hf g (by simp [hg]))
    refine ⟨i1, by rw [i2, List.length_set], i3, fun i j => ?_⟩
    rw [i4]
    simp only [List.length_cons]
    by_cases h1 : (p + 1 ≤ i ∧ i < p + 1 + fills.length) ∧ (fs ≤ j ∧ j < fe)
    · rw [if_pos h1, if_pos (by omega)]
      have : i - p = (i - (p + 1)) + 1 := by omega
      rw [this, List.getElem?_cons_succ]
    · rw [if_neg h1]
      by_cases h2 : i = p
      · subst h2
        rw [List.getElem?_set_self hp, Option.bind_some,
          getElem?_sliceAssign hse (by omega) hfl]
        by_cases h3 : fs ≤ j ∧ j < fe
        · rw [if_pos h3, if_pos (by omega), Nat.sub_self]
          rfl
        · rw [if_neg h3, if_neg (by omega), List.getElem?_eq_getElem hp]
          rfl
      · rw [if_neg (by omega), List.getElem?_set_ne (fun e => h2 e.symm)]

namespace Obj

/-- `o'` is `o` with the elements of the rectangle `[ps, pe) × [fs, fe)` replaced by `g`. -/
structure Replaced (o o' : Obj V) (ps fs pe fe : Nat) (g : Nat → Nat → Option V) : Prop where
  wf : o'.WF
  pts : o'.pts = o.pts
  fts : o'.fts = o.fts
  cell : ∀ i j, o'.elem? i j = if (ps ≤ i ∧ i < pe) ∧ (fs ≤ j ∧ j < fe) then g i j else o.elem? i j

theorem rows_replaced {o : Obj V} (h : o.WF) {ps fs pe fe : Nat} {fills : List (List V)}
    (hp : ps ≤ pe) (hpe : pe ≤ o.pts.len) (hf : fs ≤ fe) (hfe : fe ≤ o.fts.len)
    (hfl : fills.length = pe - ps) (hrow : ∀ f ∈ fills, f.length = fe - fs) :
    (replaceRows fs fe ps (fills.map some) o.data).2 = .ok () ∧
    Replaced o ({ o with data := (replaceRows fs fe ps (fills.map some) o.data).1 } : Obj V) ps fs pe fe
      (fun i j => (fills[i - ps]?).bind (·[j - fs]?)) := by
  obtain ⟨h1, h2, h3, h4⟩ := replaceRows_spec hf hfe fills ps o.data (by rw [h.rows]; omega) h.cols hrow
  refine ⟨h1, ⟨⟨by rw [← h.rows]; exact h2, h3, h.pts, h.fts⟩, rfl, rfl, ?_⟩⟩
  intro i j
  have := h4 i j
  unfold elem?
  rw [this, hfl]
  have he : ps + (pe - ps) = pe := by omega
  rw [he]

/-- With both ends given, `replaceRectangle` with a constant makes exactly the elements between the
start and the end (inclusive) equal to the constant; names and shape stay. -/
theorem C57_const {o : Obj V} (h : o.WF) {v : V} {ids idf ide idg : Ident} {ps fs pe fe : Nat}
    (h1 : o.pts.getIndex ids = .ok (ps : Int)) (h2 : o.fts.getIndex idf = .ok (fs : Int))
    (h3 : o.pts.getIndex ide = .ok (pe : Int)) (h4 : o.fts.getIndex idg = .ok (fe : Int))
    (hp : ps ≤ pe) (hf : fs ≤ fe) :
    (o.replaceRectangle (.const v) ids idf (some ide) (some idg)).2 = .ok () ∧
    Replaced o (o.replaceRectangle (.const v) ids idf (some ide) (some idg)).1 ps fs (pe + 1) (fe + 1)
      (fun _ _ => some v) := by
  have b1 := getIndex_bound h.pts h3
  have b2 := getIndex_bound h.fts h4
  have hb : rectBounds o (.const v) ps fs (some ide) (some idg) = .ok (pe + 1, fe + 1) := by
    simp only [rectBounds, Option.isNone_some, Bool.or_self, Bool.false_eq_true, if_false, constEnd,
      h3, h4, Except.map, bind, Except.bind, Int.toNat_natCast]
    rw [if_neg (by omega), if_neg (by omega)]
    rfl
  have hfills : rectFills (.const v) ps fs (pe + 1) (fe + 1)
      = (List.replicate (pe + 1 - ps) (List.replicate (fe + 1 - fs) v)).map some := by
    simp [rectFills, List.map_const']
  obtain ⟨r1, r2⟩ := rows_replaced h (ps := ps) (fs := fs) (pe := pe + 1) (fe := fe + 1)
    (fills := List.replicate (pe + 1 - ps) (List.replicate (fe + 1 - fs) v))
    (by omega) (by omega) (by omega) (by omega) (by simp)
    (by intro f hf; rw [List.mem_replicate] at hf; simp [hf.2])
  unfold replaceRectangle
  simp only [h1, h2, Int.toNat_natCast, hb, hfills]
  refine ⟨r1, ⟨r2.wf, r2.pts, r2.fts, ?_⟩⟩
  intro i j
  rw [r2.cell]
  split
  · next hij =>
    rw [List.getElem?_replicate, if_pos (by omega)]
    simp only [Option.bind_some]
    rw [List.getElem?_replicate, if_pos (by omega)]
  · rfl

/-- With both ends given, `replaceRectangle` with an object is accepted exactly when the object has
the size of the rectangle, and then puts its elements there; otherwise nothing changes. -/
theorem C57_obj {o r : Obj V} (h : o.WF) (hr : r.WF) {ids idf ide idg : Ident} {ps fs pe fe : Nat}
    (h1 : o.pts.getIndex ids = .ok (ps : Int)) (h2 : o.fts.getIndex idf = .ok (fs : Int))
    (h3 : o.pts.getIndex ide = .ok (pe : Int)) (h4 : o.fts.getIndex idg = .ok (fe : Int)) :
    (((r.pts.len : Int) = pe - ps + 1 ∧ (r.fts.len : Int) = fe - fs + 1) →
      (o.replaceRectangle (.obj r) ids idf (some ide) (some idg)).2 = .ok () ∧
      Replaced o (o.replaceRectangle (.obj r) ids idf (some ide) (some idg)).1 ps fs (pe + 1) (fe + 1)
        (fun i j => r.elem? (i - ps) (j - fs))) ∧
    (¬ ((r.pts.len : Int) = pe - ps + 1 ∧ (r.fts.len : Int) = fe - fs + 1) →
      o.replaceRectangle (.obj r) ids idf (some ide) (some idg)
        = (o, .error .InvalidArgumentValueCombination)) := by
  have b1 := getIndex_bound h.pts h3
  have b2 := getIndex_bound h.fts h4
  constructor
  · rintro ⟨e1, e2⟩
    have hb : rectBounds o (.obj r) ps fs (some ide) (some idg) = .ok (ps + r.pts.len, fs + r.fts.len) := by
      simp only [rectBounds, rectEnd, h3, h4]
      rw [if_neg (by simpa using e1), if_neg (by simpa using e2)]
      rfl
    have hfills : rectFills (.obj r) ps fs (ps + r.pts.len) (fs + r.fts.len) = r.data.map some := by
      simp only [rectFills, Nat.add_sub_cancel_left, ← hr.rows]
      apply List.ext_getElem?
      intro k
      by_cases hk : k < r.data.length
      · simp [hk]
      · rw [List.getElem?_eq_none (by simp; omega), List.getElem?_eq_none (by simp; omega)]
    obtain ⟨r1, r2⟩ := rows_replaced h (ps := ps) (fs := fs) (pe := ps + r.pts.len) (fe := fs + r.fts.len)
      (fills := r.data) (by omega) (by omega) (by omega) (by omega) (by rw [hr.rows]; omega)
      (by intro f hf; rw [hr.cols f hf]; omega)
    unfold replaceRectangle
    simp only [h1, h2, Int.toNat_natCast, hb, hfills]
    refine ⟨r1, ⟨r2.wf, r2.pts, r2.fts, ?_⟩⟩
    intro i j
    rw [r2.cell]
    have q1 : ps + r.pts.len = pe + 1 := by omega
    have q2 : fs + r.fts.len = fe + 1 := by omega
    rw [q1, q2]
    rfl
  · intro hne
    have hb : rectBounds o (.obj r) ps fs (some ide) (some idg) = .error .InvalidArgumentValueCombination := by
      simp only [rectBounds, rectEnd, h3, h4]
      by_cases e1 : (r.pts.len : Int) = pe - ps + 1
      · have e2 : ¬ (r.fts.len : Int) = fe - fs + 1 := fun e2 => hne ⟨e1, e2⟩
        rw [if_neg (by simpa using e1), if_pos e2]
        rfl
      · rw [if_pos e1]
        rfl
    unfold replaceRectangle
    simp only [h1, h2, Int.toNat_natCast, hb]

/-- Without ends the rectangle is as large as the object, provided this is square and fits; see
`C57_default_end_violated` for objects that are not square. -/
theorem C57_default_partial {o r : Obj V} (h : o.WF) (hr : r.WF) {ids idf : Ident} {ps fs : Nat}
    (h1 : o.pts.getIndex ids = .ok (ps : Int)) (h2 : o.fts.getIndex idf = .ok (fs : Int))
    (hsq : r.pts.len = r.fts.len) (hfp : ps + r.pts.len ≤ o.pts.len) (hff : fs + r.fts.len ≤ o.fts.len) :
    (o.replaceRectangle (.obj r) ids idf none none).2 = .ok () ∧
    Replaced o (o.replaceRectangle (.obj r) ids idf none none).1 ps fs (ps + r.pts.len) (fs + r.fts.len)
      (fun i j => r.elem? (i - ps) (j - fs)) := by
  have hb : rectBounds o (.obj r) ps fs none none = .ok (ps + r.pts.len, fs + r.fts.len) := by
    simp only [rectBounds, rectEnd, hsq]
    rfl
  have hfills : rectFills (.obj r) ps fs (ps + r.pts.len) (fs + r.fts.len) = r.data.map some := by
    simp only [rectFills, Nat.add_sub_cancel_left, ← hr.rows]
    apply List.ext_getElem?
    intro k
    by_cases hk : k < r.data.length
    · simp [hk]
    · rw [List.getElem?_eq_none (by simp; omega), List.getElem?_eq_none (by simp; omega)]
  obtain ⟨r1, r2⟩ := rows_replaced h (ps := ps) (fs := fs) (pe := ps + r.pts.len) (fe := fs + r.fts.len)
    (fills := r.data) (by omega) (by omega) (by omega) (by omega) (by rw [hr.rows]; omega)
    (by intro f hf; rw [hr.cols f hf]; omega)
  unfold replaceRectangle
  simp only [h1, h2, Int.toNat_natCast, hb, hfills]
  exact ⟨r1, ⟨r2.wf, r2.pts, r2.fts, r2.cell⟩⟩

/-- An object without names. -/
def plain (data : List (List Int)) (n : Nat) : Obj Int := ⟨data, ⟨data.length, none⟩, ⟨n, none⟩⟩

theorem plain_wf {data : List (List Int)} {n : Nat} (h : ∀ r ∈ data, r.length = n) : (plain data n).WF :=
  ⟨rfl, h, (by intro t ht; cases ht), (by intro t ht; cases ht)⟩

/-- Without `featureEnd` the number of points of the object is used for the width (base.py:3967):
putting a 1 x 2 object at the corner of a 2 x 3 `List` object makes the first row four values long, so
the object is broken. -/
theorem C57_default_end_violated :
    ¬ (∀ (o r : Obj Int), o.WF → r.WF → r.pts.len ≤ o.pts.len → r.fts.len ≤ o.fts.len →
      0 < r.pts.len → 0 < r.fts.len →
      (o.replaceRectangle (.obj r) (.int 0) (.int 0) none none).1.WF) := by
  intro h
  have := (h (plain [[1, 2, 3], [4, 5, 6]] 3) (plain [[8, 9]] 2) (plain_wf (by decide)) (plain_wf (by decide))
    (by decide) (by decide) (by decide) (by decide)).cols
  revert this
  decide +kernel

/-- Without ends it is not checked that the object fits (base.py:3955-3975): a 2 x 2 object placed at
the last feature of a 2 x 2 `List` object makes its rows three values long. -/
theorem C57_default_fit_violated :
    ¬ (∀ (o r : Obj Int), o.WF → r.WF → r.pts.len = r.fts.len → ∀ f : Int,
      (o.replaceRectangle (.obj r) (.int 0) (.int f) none none).1.WF) := by
  intro h
  have := (h (plain [[1, 2], [4, 5]] 2) (plain [[8, 9], [6, 7]] 2) (plain_wf (by decide)) (plain_wf (by decide))
    (by decide) 1).cols
  revert this
  decide +kernel

/-- An example for the hypotheses. -/
theorem C57_example :
    (plain [[1, 2, 3], [4, 5, 6]] 3).pts.getIndex (.int 0) = .ok ((0 : Nat) : Int) ∧
    (plain [[1, 2, 3], [4, 5, 6]] 3).fts.getIndex (.int (-1)) = .ok ((2 : Nat) : Int) ∧
    ((plain [[1, 2, 3], [4, 5, 6]] 3).replaceRectangle (.obj (plain [[7, 8]] 2)) (.int 1) (.int 1)
      (some (.int 1)) (some (.int (-1)))).1.data = [[1, 2, 3], [4, 7, 8]] ∧
    ((plain [[1, 2, 3], [4, 5, 6]] 3).replaceRectangle (.const 0) (.int 0) (.int 0)
      (some (.int 1)) (some (.int 1))).1.data = [[0, 0, 3], [0, 0, 6]] := by
  refine ⟨by decide +kernel, by decide +kernel, by decide +kernel, by decide +kernel⟩

end Obj
end Nimble
