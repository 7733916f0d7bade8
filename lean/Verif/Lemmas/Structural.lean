import Verif.Lemmas.Obj

/-! Helper lemmas: selection and removal along an axis. -/

namespace Nimble
open Obj

variable {V : Type}

theorem getElem?_filterMap_col {data : List (List V)} {j : Nat} (h : ∀ r ∈ data, j < r.length)
    (i : Nat) : (data.filterMap (·[j]?))[i]? = (data[i]?).bind (·[j]?) := by
  induction data generalizing i with
  | nil => simp
  | cons r data ih =>
    have hr := h r (by simp)
    have : List.filterMap (·[j]?) (r :: data) = r[j] :: List.filterMap (·[j]?) data := by
      simp [hr]
    rw [this]
    cases i with
    | zero => simp [hr]
    | succ i => simpa using ih (fun q hq => h q (by simp [hq])) i

theorem length_filterMap_col {data : List (List V)} {j : Nat} (h : ∀ r ∈ data, j < r.length) :
    (data.filterMap (·[j]?)).length = data.length := by
  induction data with
  | nil => simp
  | cons r data ih =>
    have hr := h r (by simp)
    simp [hr, ih (fun q hq => h q (by simp [hq]))]

namespace Obj

theorem WF.axisOk {o : Obj V} (h : o.WF) (ax : Ax) : (o.axis ax).Ok := by
  cases ax
  · exact h.pts
  · exact h.fts

theorem WF.vector_point {o : Obj V} (h : o.WF) {i : Nat} (hi : i < o.pts.len) :
    ∃ r, o.data[i]? = some r ∧ o.vector .point i = r ∧ r.length = o.fts.len := by
  have hl : i < o.data.length := by rw [h.rows]; exact hi
  refine ⟨o.data[i], List.getElem?_eq_getElem hl, by simp [vector, hl], h.cols _ (List.getElem_mem hl)⟩

theorem WF.col_bound {o : Obj V} (h : o.WF) {j : Nat} (hj : j < o.fts.len) :
    ∀ r ∈ o.data, j < r.length := fun r hr => by rw [h.cols r hr]; exact hj

theorem WF.length_vector {o : Obj V} (h : o.WF) (ax : Ax) {i : Nat} (hi : i < (o.axis ax).len) :
    (o.vector ax i).length = (o.axis ax.off).len := by
  cases ax with
  | point =>
    obtain ⟨r, _, h2, h3⟩ := h.vector_point hi
    rw [h2]; exact h3
  | feature =>
    show (o.data.filterMap (·[i]?)).length = o.pts.len
    rw [length_filterMap_col (h.col_bound hi), h.rows]

/-- Elements through either axis. -/
theorem WF.vector_elem {o : Obj V} (h : o.WF) {i j : Nat} (hi : i < o.pts.len) (hj : j < o.fts.len) :
    (o.vector .point i)[j]? = o.elem? i j ∧ (o.vector .feature j)[i]? = o.elem? i j := by
  constructor
  · obtain ⟨r, h1, h2, _⟩ := h.vector_point hi
    rw [h2, elem?, h1]; rfl
  · exact getElem?_filterMap_col (h.col_bound hj) i

theorem length_lines (o : Obj V) (ax : Ax) : (o.lines ax).length = (o.axis ax).len := by
  simp [lines]

theorem getElem?_lines (o : Obj V) (ax : Ax) {i : Nat} (hi : i < (o.axis ax).len) :
    (o.lines ax)[i]? = some (((o.axis ax).getNames[i]?).join, o.vector ax i) := by
  simp [lines, hi]

theorem vector_selData {o r : Obj V} {ax : Ax} {tgt : List Nat} (h : o.WF)
    (hb : ∀ i ∈ tgt, i < (o.axis ax).len) (hd : r.data = selData ax o.data tgt) {k t : Nat}
    (hk : tgt[k]? = some t) : r.vector ax k = o.vector ax t := by
  cases ax with
  | point =>
    simp only [vector, hd, selData]
    rw [getElem?_pick (by intro i hi; rw [h.rows]; exact hb i hi), hk]; rfl
  | feature =>
    simp only [vector, hd, selData, List.filterMap_map]
    apply List.filterMap_congr
    intro row hrow
    simp only [Function.comp]
    rw [getElem?_pick (by intro i hi; rw [h.cols row hrow]; exact hb i hi), hk]; rfl

theorem lines_select {o r : Obj V} {ax : Ax} {tgt : List Nat} (h : o.WF)
    (hb : ∀ i ∈ tgt, i < (o.axis ax).len) (hd : r.data = selData ax o.data tgt)
    (hlen : (r.axis ax).len = tgt.length)
    (hnames : (r.axis ax).getNames = pick (o.axis ax).getNames tgt) :
    r.lines ax = pick (o.lines ax) tgt := by
  apply List.ext_getElem?
  intro k
  rw [getElem?_pick (by rw [length_lines]; exact hb)]
  by_cases hk : k < tgt.length
  · rw [getElem?_lines _ _ (by omega), List.getElem?_eq_getElem hk]
    have hm := hb _ (List.getElem_mem hk)
    simp only [Option.bind_some]
    rw [getElem?_lines _ _ hm, hnames,
      getElem?_pick (by rw [(h.axisOk ax).length_getNames]; exact hb),
      List.getElem?_eq_getElem hk,
      vector_selData h hb hd (List.getElem?_eq_getElem hk)]
    rfl
  · rw [List.getElem?_eq_none (by rw [length_lines]; omega),
      List.getElem?_eq_none (l := tgt) (by omega)]; rfl

theorem length_selData_point {o : Obj V} (h : o.WF) {tgt : List Nat} (hb : ∀ i ∈ tgt, i < o.pts.len) :
    (selData .point o.data tgt).length = tgt.length :=
  length_pick (by rw [h.rows]; exact hb)

theorem selData_cols_point {o : Obj V} (h : o.WF) {tgt : List Nat} :
    ∀ r ∈ selData .point o.data tgt, r.length = o.fts.len := by
  intro r hr
  obtain ⟨j, _, he⟩ := mem_pick.1 hr
  exact h.cols r (List.mem_of_getElem? he)

theorem selData_cols_feature {o : Obj V} (h : o.WF) {tgt : List Nat} (hb : ∀ i ∈ tgt, i < o.fts.len) :
    ∀ r ∈ selData .feature o.data tgt, r.length = tgt.length := by
  intro r hr
  obtain ⟨q, hq, rfl⟩ := List.mem_map.1 hr
  exact length_pick (by rw [h.cols q hq]; exact hb)

/-- Constructing from rows of the right size gives the expected shape. -/
theorem makeFrom_eq {data : List (List V)} {nP nF : Nat} (hr : data.length = nP)
    (hc : ∀ r ∈ data, r.length = nF) (pn fn : Option (List (Option String))) :
    makeFrom data nF pn fn = make data nP nF pn fn := by
  cases data with
  | nil => simp at hr; subst hr; rfl
  | cons r rest =>
    have := hc r (by simp)
    simp only [makeFrom, this, hr]

/-- Specification of the selected object. -/
structure SelectedSpec (o r : Obj V) (ax : Ax) (tgt : List Nat) : Prop where
  wf : r.WF
  data : r.data = selData ax o.data tgt
  len : (r.axis ax).len = tgt.length
  names : (r.axis ax).getNames = pick (o.axis ax).getNames tgt
  offLen : (r.axis ax.off).len = (o.axis ax.off).len
  offNames : (r.axis ax.off).getNames = (o.axis ax.off).getNames
  created : (r.axis ax).tbl.isSome = (o.axis ax).tbl.isSome
  offCreated : (r.axis ax.off).tbl.isSome = (o.axis ax.off).tbl.isSome

theorem selected_spec {o : Obj V} (h : o.WF) (ax : Ax) {tgt : List Nat} (ht : tgt.Nodup)
    (hb : ∀ i ∈ tgt, i < (o.axis ax).len) :
    ∃ r, o.selected ax tgt = .ok r ∧ SelectedSpec o r ax tgt := by
  cases ax with
  | point =>
    obtain ⟨a, ha1, ha2, ha3, ha4, ha5⟩ := init_pick h.pts ht hb
    obtain ⟨b, hb1, hb2, hb3, hb4, hb5⟩ := init_same h.fts
    have hr := length_selData_point h hb
    have hc := selData_cols_point (tgt := tgt) h
    refine ⟨⟨selData .point o.data tgt, a, b⟩, ?_, ⟨⟨?_, ?_, ha2, hb2⟩, rfl, ha3, ha4, hb3, hb4,
      ha5, hb5⟩⟩
    · simp only [selected, axis, makeFrom_eq hr hc, make, ha1, hb1, bind, Except.bind, pure,
        Except.pure]
    · show (selData .point o.data tgt).length = a.len
      rw [hr, ha3]
    · intro r hr'
      show r.length = b.len
      rw [hb3]; exact hc r hr'
  | feature =>
    obtain ⟨a, ha1, ha2, ha3, ha4, ha5⟩ := init_pick h.fts ht hb
    obtain ⟨b, hb1, hb2, hb3, hb4, hb5⟩ := init_same h.pts
    have hr : (selData .feature o.data tgt).length = o.pts.len := by
      simp [selData, h.rows]
    have hc := selData_cols_feature h hb
    refine ⟨⟨selData .feature o.data tgt, b, a⟩, ?_, ⟨⟨?_, ?_, hb2, ha2⟩, rfl, ha3, ha4, hb3, hb4,
      ha5, hb5⟩⟩
    · simp only [selected, axis, makeFrom_eq hr hc, make, ha1, hb1, bind, Except.bind, pure,
        Except.pure]
    · show (selData .feature o.data tgt).length = b.len
      rw [hr, hb3]
    · intro r hr'
      show r.length = a.len
      rw [ha3]; exact hc r hr'

/-- The complement of the targets. -/
def restIdx (n : Nat) (tgt : List Nat) : List Nat := (List.range n).filter (fun i => i ∉ tgt)

theorem restIdx_bound {n : Nat} {tgt : List Nat} : ∀ i ∈ restIdx n tgt, i < n := by
  intro i hi; simp [restIdx] at hi; exact hi.1

theorem restIdx_nodup {n : Nat} {tgt : List Nat} : (restIdx n tgt).Nodup := nodup_rest n tgt

theorem remaining_spec {o : Obj V} (h : o.WF) (ax : Ax) {tgt : List Nat} (ht : tgt.Nodup)
    (hb : ∀ i ∈ tgt, i < (o.axis ax).len) :
    SelectedSpec o (o.remaining ax tgt tgt.length) ax (restIdx (o.axis ax).len tgt) := by
  obtain ⟨h1, h2, h3⟩ := removeNames_ok (h.axisOk ax) ht hb
  have hcr : (removeNames (o.axis ax) tgt tgt.length).tbl.isSome = (o.axis ax).tbl.isSome := by
    simp [removeNames]
  cases ax with
  | point =>
    refine ⟨⟨?_, ?_, h1, h.fts⟩, rfl, h2, h3, rfl, rfl, hcr, rfl⟩
    · show (selData .point o.data (restIdx o.pts.len tgt)).length = _
      rw [length_selData_point h restIdx_bound]
      exact h2.symm
    · exact selData_cols_point h
  | feature =>
    refine ⟨⟨?_, ?_, h.pts, h1⟩, rfl, h2, h3, rfl, rfl, hcr, rfl⟩
    · show (selData .feature o.data (restIdx o.fts.len tgt)).length = _
      simp [selData, h.rows]; rfl
    · intro r hr
      have := selData_cols_feature (tgt := restIdx o.fts.len tgt) h restIdx_bound r hr
      rw [this]; exact h2.symm

theorem SelectedSpec.lines {o r : Obj V} {ax : Ax} {tgt : List Nat} (s : SelectedSpec o r ax tgt)
    (h : o.WF) (hb : ∀ i ∈ tgt, i < (o.axis ax).len) : r.lines ax = pick (o.lines ax) tgt :=
  lines_select h hb s.data s.len s.names

end Obj
end Nimble
