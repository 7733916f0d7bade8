import Verif.Lemmas.Structural
import Verif.Lemmas.Targets
import Verif.Lemmas.Permute
import Verif.Model.Group

namespace Nimble
namespace Obj
variable {V : Type}

/-- `r` shows the points `ps` and the features `fs` of `o`: element `(i, k)` of `r` is element
`(ps[i], fs[k])` of `o`, and the names go along. -/
structure Window (o r : Obj V) (ps fs : List Nat) : Prop where
  wf : r.WF
  data : r.data = (pick o.data ps).map (fun row => pick row fs)
  pLen : r.pts.len = ps.length
  fLen : r.fts.len = fs.length
  pNames : r.pts.getNames = pick o.pts.getNames ps
  fNames : r.fts.getNames = pick o.fts.getNames fs

/-- The elements of a window. -/
theorem Window.elem {o r : Obj V} {ps fs : List Nat} (w : Window o r ps fs) (h : o.WF)
    (hp : ∀ i ∈ ps, i < o.pts.len) (hf : ∀ i ∈ fs, i < o.fts.len) {i k a b : Nat}
    (hi : ps[i]? = some a) (hk : fs[k]? = some b) : r.elem? i k = o.elem? a b := by
  have ha : a < o.pts.len := hp a (List.mem_of_getElem? hi)
  have hb : b < o.fts.len := hf b (List.mem_of_getElem? hk)
  obtain ⟨row, h1, -, h3⟩ := h.vector_point ha
  have h4 : (pick o.data ps)[i]? = some row := by
    rw [getElem?_pick (by rw [h.rows]; exact hp), hi]
    exact h1
  unfold elem?
  rw [w.data, List.getElem?_map, h4, h1]
  simp only [Option.map_some, Option.bind_some]
  rw [getElem?_pick (by rw [h3]; exact hf), hk]
  rfl

theorem Window.refl {o : Obj V} (h : o.WF) :
    Window o o (List.range o.pts.len) (List.range o.fts.len) := by
  refine ⟨h, ?_, by simp, by simp, ?_, ?_⟩
  · rw [pick_range_of_eq _ h.rows.symm]
    conv_lhs => rw [← List.map_id o.data]
    apply List.map_congr_left
    intro row hrow
    rw [pick_range_of_eq _ (h.cols row hrow).symm]; rfl
  · rw [pick_range_of_eq _ h.pts.length_getNames.symm]
  · rw [pick_range_of_eq _ h.fts.length_getNames.symm]

/-- Selecting points of a window. -/
theorem Window.selectPoints {o a r : Obj V} {ps fs tgt : List Nat} (w : Window o a ps fs)
    (h : o.WF) (hp : ∀ i ∈ ps, i < o.pts.len)
    (S : SelectedSpec a r .point tgt) (hb : ∀ i ∈ tgt, i < ps.length) :
    Window o r (pick ps tgt) fs := by
  have hbl : ∀ i ∈ ps, i < o.data.length := by rw [h.rows]; exact hp
  refine ⟨S.wf, ?_, ?_, ?_, ?_, ?_⟩
  · rw [S.data]
    show pick a.data tgt = _
    rw [w.data, ← pick_map, pick_pick (by rw [List.length_map]; exact hbl) hb, pick_map]
  · rw [length_pick hb]; exact S.len
  · have := S.offLen; rw [← w.fLen]; exact this
  · have h1 : r.pts.getNames = _ := S.names
    rw [h1]
    show pick a.pts.getNames tgt = _
    rw [w.pNames, pick_pick (by rw [h.pts.length_getNames]; exact hp) hb]
  · have h1 : r.fts.getNames = _ := S.offNames
    rw [h1]; exact w.fNames

/-- Selecting features of a window. -/
theorem Window.selectFeatures {o a r : Obj V} {ps fs tgt : List Nat} (w : Window o a ps fs)
    (h : o.WF) (hf : ∀ i ∈ fs, i < o.fts.len)
    (S : SelectedSpec a r .feature tgt) (hb : ∀ i ∈ tgt, i < fs.length) :
    Window o r ps (pick fs tgt) := by
  refine ⟨S.wf, ?_, ?_, ?_, ?_, ?_⟩
  · rw [S.data]
    show a.data.map (fun r => pick r tgt) = _
    rw [w.data, List.map_map]
    apply List.map_congr_left
    intro row hrow
    obtain ⟨j, _, hj⟩ := mem_pick.1 hrow
    have hrl := h.cols row (List.mem_of_getElem? hj)
    show pick (pick row fs) tgt = _
    rw [pick_pick (by rw [hrl]; exact hf) hb]
  · have := S.offLen; rw [← w.pLen]; exact this
  · rw [length_pick hb]; exact S.len
  · have h1 : r.pts.getNames = _ := S.offNames
    rw [h1]; exact w.pNames
  · have h1 : r.fts.getNames = _ := S.names
    rw [h1]
    show pick a.fts.getNames tgt = _
    rw [w.fNames, pick_pick (by rw [h.fts.length_getNames]; exact hf) hb]

theorem pick_range_self {n : Nat} {tgt : List Nat} (hb : ∀ i ∈ tgt, i < n) :
    pick (List.range n) tgt = tgt := by
  induction tgt with
  | nil => rfl
  | cons i tgt ih =>
    have hi : i < (List.range n).length := by simpa using hb i (by simp)
    rw [pick_cons _ hi, ih (fun j hj => hb j (by simp [hj]))]
    simp

theorem window_points {o r : Obj V} (h : o.WF) {tgt : List Nat} (S : SelectedSpec o r .point tgt)
    (hb : ∀ i ∈ tgt, i < o.pts.len) : Window o r tgt (List.range o.fts.len) := by
  have := (Window.refl h).selectPoints h (by simp) S (by simpa using hb)
  rwa [pick_range_self hb] at this

theorem window_features {o r : Obj V} (h : o.WF) {tgt : List Nat} (S : SelectedSpec o r .feature tgt)
    (hb : ∀ i ∈ tgt, i < o.fts.len) : Window o r (List.range o.pts.len) tgt := by
  have := (Window.refl h).selectFeatures h (by simp) S (by simpa using hb)
  rwa [pick_range_self hb] at this

/-- The targets of a list of in-range indices. -/
theorem targets_indices {samp : List Nat → Nat → List Nat} {o : Obj V} (ax : Ax)
    {idx : List Nat} (hn : idx.Nodup) (hb : ∀ i ∈ idx, i < (o.axis ax).len) :
    o.targets samp ax { target := some (.list (idx.map (fun (i : Nat) => .int (i : Int)))) } =
      .ok idx := by
  have hr : ∀ l : List Nat, (∀ i ∈ l, i < (o.axis ax).len) →
      resolveIdents (o.axis ax) (l.map (fun (i : Nat) => .int (i : Int))) = .ok l := by
    intro l
    induction l with
    | nil => intro _; rfl
    | cons i l ih =>
      intro hl
      have hi := hl i (by simp)
      have : (o.axis ax).getIndex (.int (i : Int)) = .ok (i : Int) := by
        have h1 : ¬ ((i : Int) < 0) := by omega
        simp only [AxisSt.getIndex]
        rw [if_neg (by omega), if_neg h1, if_neg (by omega)]
      simp only [List.map_cons, resolveIdents, this, ih (fun j hj => hl j (by simp [hj])), bind,
        Except.bind, pure, Except.pure, Int.toNat_natCast]
  have hd : resolveDistinct (o.axis ax) (idx.map (fun (i : Nat) => .int (i : Int))) = .ok idx := by
    simp only [resolveDistinct, hr idx hb, bind, Except.bind]
    rw [if_pos hn]; rfl
  simp only [targets, validateStructural, numberBad, baseTargets, bind, Except.bind]
  simp [hd, pure, Except.pure]

/-- The targets of a `GroupBy` argument whose identifiers denote distinct features. -/
theorem targets_by {samp : List Nat → Nat → List Nat} {g : Obj V} {cols : List Nat} {by' : GroupBy}
    (hc : resolveIdents g.fts by'.idents = .ok cols) (hn : cols.Nodup) :
    g.targets samp .feature { target := some by'.target } = .ok cols := by
  have hc' : resolveDistinct g.fts by'.idents = .ok cols :=
    (resolveDistinct_ok_iff _ _ _).2 ⟨hc, hn⟩
  have hbase : g.baseTargets .feature { target := some by'.target } = .ok cols := by
    cases by' with
    | int i => exact hc'
    | list ids => exact hc'
    | name s =>
      have hname : g.fts.hasName s = .ok true := by
        simp only [GroupBy.idents, resolveIdents] at hc
        obtain ⟨i, hi, _⟩ := Res.bind_ok.1 hc
        unfold AxisSt.hasName
        rw [hi]
      simp only [Obj.baseTargets, GroupBy.target, Obj.axis, hname, bind, Except.bind]
      exact hc'
  have hval : validateStructural ({ target := some by'.target } : Selector V) = .ok () := by
    cases by' <;> rfl
  unfold Obj.targets
  rw [hval]
  simp only [bind, Except.bind, hbase]
  rfl

/-- Extraction with known targets. -/
theorem extract_of_targets {samp : List Nat → Nat → List Nat} {o : Obj V} (h : o.WF) {ax : Ax}
    {sel : Selector V} {tgt : List Nat} (ht : o.targets samp ax sel = .ok tgt) (hn : tgt.Nodup)
    (hb : ∀ i ∈ tgt, i < (o.axis ax).len) :
    ∃ q r, o.extract samp ax sel = (q, .ok r) ∧ o.delete samp ax sel = (q, .ok ()) ∧
      (o.copy samp ax sel).2 = .ok r ∧
      SelectedSpec o r ax tgt ∧ SelectedSpec o q ax (restIdx (o.axis ax).len tgt) := by
  obtain ⟨ret, hr1, hr2⟩ := selected_spec h ax hn hb
  have R := remaining_spec h ax hn hb
  refine ⟨o.remaining ax tgt tgt.length, ret, ?_, ?_, ?_, hr2, R⟩
  · unfold extract
    simp only [ht, hr1, bind, Except.bind, pure, Except.pure, hr2.len]
  · unfold delete
    simp only [ht, hr1, bind, Except.bind, pure, Except.pure, hr2.len]
  · unfold copy
    simp only [ht, hr1, bind, Except.bind]

end Obj
end Nimble
