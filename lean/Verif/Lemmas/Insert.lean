import Verif.Lemmas.NameChecks
import Verif.Model.Insert

/-! Helper lemmas: inserting. -/

namespace Nimble

theorem pick_append_left {α : Type} (a b : List α) {l : List Nat} (h : ∀ i ∈ l, i < a.length) :
    pick (a ++ b) l = pick a l := by
  unfold pick
  apply List.filterMap_congr
  intro i hi
  exact List.getElem?_append_left (h i hi)

theorem pick_range' {α : Type} (a b : List α) : pick (a ++ b) (List.range' a.length b.length) = b := by
  apply List.ext_getElem?
  intro k
  rw [getElem?_pick (by intro i hi; rw [List.mem_range'_1] at hi; simp; omega)]
  by_cases hk : k < b.length
  · rw [List.getElem?_range' hk]
    simp [List.getElem?_append_right]
  · rw [List.getElem?_eq_none (l := List.range' _ _) (by simp; omega), List.getElem?_eq_none (l := b) (by omega)]
    rfl

namespace Obj
variable {V : Type}

theorem restIdx_block (a m c : Nat) :
    restIdx (a + m + c) (List.range' a m) = List.range a ++ List.range' (a + m) c := by
  unfold restIdx
  have : List.range (a + m + c) = List.range a ++ (List.range' a m ++ List.range' (a + m) c) := by
    rw [List.range'_append_1, List.range_eq_range', List.range_eq_range']
    have := List.range'_append_1 (s := 0) (m := a) (n := m + c)
    rw [Nat.zero_add] at this
    rw [this, Nat.add_assoc]
  rw [this, List.filter_append, List.filter_append]
  rw [List.filter_eq_self.2, List.filter_eq_nil_iff.2, List.filter_eq_self.2]
  · simp
  · intro i hi; rw [List.mem_range'_1] at hi; simp [List.mem_range'_1]; omega
  · intro i hi; simpa using hi
  · intro i hi; simp [List.mem_range'_1] at hi ⊢; omega

/-- Dropping an inserted block gives the rest back. -/
theorem pick_restIdx_block {α : Type} (A B C : List α) :
    pick (A ++ B ++ C) (restIdx (A.length + B.length + C.length) (List.range' A.length B.length)) = A ++ C := by
  rw [restIdx_block, pick_append]
  congr 1
  · rw [List.append_assoc, pick_append_left _ _ (by simp)]; exact pick_range A
  · have := pick_range' (A ++ B) C
    rwa [List.length_append] at this

/-- Two well-formed objects that look the same along one axis and have the same other axis are
observably the same. -/
theorem same_of_lines {o r : Obj V} (ho : o.WF) (hr : r.WF) (ax : Ax) (hl : o.lines ax = r.lines ax)
    (hlen : (o.axis ax.off).len = (r.axis ax.off).len)
    (hn : (o.axis ax.off).getNames = (r.axis ax.off).getNames) : o.Same r := by
  have hlen1 : (o.axis ax).len = (r.axis ax).len := by
    rw [← length_lines o ax, hl, length_lines]
  have hline : ∀ i, i < (o.axis ax).len →
      ((o.axis ax).getNames[i]?).join = ((r.axis ax).getNames[i]?).join ∧ o.vector ax i = r.vector ax i := by
    intro i hi
    have h1 := getElem?_lines o ax hi
    rw [hl, getElem?_lines r ax (by omega)] at h1
    simp only [Option.some.injEq, Prod.mk.injEq] at h1
    exact ⟨h1.1.symm, h1.2.symm⟩
  have hnames : (o.axis ax).getNames = (r.axis ax).getNames := by
    have l1 := (ho.axisOk ax).length_getNames
    have l2 := (hr.axisOk ax).length_getNames
    apply List.ext_getElem (by omega)
    intro i h1 h2
    have := (hline i (by omega)).1
    rwa [List.getElem?_eq_getElem h1, List.getElem?_eq_getElem h2] at this
  have hp : o.pts.len = r.pts.len := by cases ax <;> assumption
  have hf : o.fts.len = r.fts.len := by cases ax <;> assumption
  have hdata : o.data = r.data := by
    apply List.ext_getElem (by rw [ho.rows, hr.rows, hp])
    intro i h1 h2
    have c1 := ho.cols _ (List.getElem_mem h1)
    have c2 := hr.cols _ (List.getElem_mem h2)
    apply List.ext_getElem (by omega)
    intro j g1 g2
    have hi : i < o.pts.len := by rw [← ho.rows]; exact h1
    have hj : j < o.fts.len := by omega
    have e1 := ho.vector_elem hi hj
    have e2 := hr.vector_elem (i := i) (j := j) (by omega) (by omega)
    have : o.elem? i j = r.elem? i j := by
      cases ax with
      | point => rw [← e1.1, ← e2.1, (hline i hi).2]
      | feature => rw [← e1.2, ← e2.2, (hline j hj).2]
    simpa [Obj.elem?, h1, h2, g1, g2] using this
  cases ax with
  | point => exact ⟨hp, hf, hdata, hnames, hn⟩
  | feature => exact ⟨hp, hf, hdata, hn, hnames⟩

theorem insertData_point {n : Nat} {data ins : List (List V)} {i : Nat} (hd : data.length = n)
    (hi : i ≤ n) : insertData .point n data ins i = data.take i ++ ins ++ data.drop i := by
  simp only [insertData]
  split
  · rfl
  · split
    · next h => subst h; simp
    · next h1 h2 =>
      have : i = n := by omega
      subst this; subst hd
      simp

theorem insertData_feature_row {n m : Nat} {data ins : List (List V)} {i : Nat}
    (hlen : data.length = ins.length) (hc : ∀ r ∈ data, r.length = n)
    (hi : i ≤ n) (k : Nat) :
    (insertData .feature n data ins i)[k]? =
      (data[k]?).bind (fun r => (ins[k]?).map (fun s => r.take i ++ s ++ r.drop i)) := by
  simp only [insertData]
  split
  · simp only [List.getElem?_zipWith, List.getElem?_map]
    cases h1 : data[k]? with
    | none => simp
    | some r => cases h2 : ins[k]? <;> simp
  · split
    · next h =>
      subst h
      simp only [List.getElem?_zipWith]
      cases h1 : data[k]? with
      | none => cases ins[k]? <;> simp
      | some r => cases h2 : ins[k]? <;> simp
    · have : i = n := by omega
      subst this
      simp only [List.getElem?_zipWith]
      cases h1 : data[k]? with
      | none => simp
      | some r =>
        have := hc r (List.mem_of_getElem? h1)
        subst this
        cases h2 : ins[k]? <;> simp

/-- The names along the grown axis. -/
theorem insertedAxis_spec {a b : AxisSt} (ha : a.Ok) (hb : b.Ok)
    (hdis : ∀ s : String, some s ∈ a.getNames → some s ∉ b.getNames) {i : Nat} (hi : i ≤ a.len) :
    ∃ c, insertedAxis a b i = .ok c ∧ c.Ok ∧ c.len = a.len + b.len ∧
      c.getNames = a.getNames.take i ++ b.getNames ++ a.getNames.drop i := by
  unfold insertedAxis
  split
  · next h =>
    simp only [Bool.and_eq_true, Option.isNone_iff_eq_none] at h
    refine ⟨_, rfl, none_ok _, rfl, ?_⟩
    simp only [AxisSt.getNames, h.1, h.2]
    simp [List.take_replicate, List.drop_replicate]
    omega
  · have hlen : (a.getNames.take i ++ b.getNames ++ a.getNames.drop i).length = a.len + b.len := by
      simp [ha.length_getNames, hb.length_getNames]; omega
    have hnd : (a.getNames.take i ++ b.getNames ++ a.getNames.drop i).reduceOption.Nodup := by
      have e : (a.getNames.take i ++ b.getNames ++ a.getNames.drop i).reduceOption.Perm
          (a.getNames.reduceOption ++ b.getNames.reduceOption) := by
        rw [List.reduceOption_append, List.reduceOption_append]
        have : a.getNames.reduceOption = (a.getNames.take i).reduceOption ++ (a.getNames.drop i).reduceOption := by
          rw [← List.reduceOption_append, List.take_append_drop]
        rw [this, List.append_assoc, List.append_assoc]
        exact List.Perm.append_left _ List.perm_append_comm
      rw [e.nodup_iff, List.nodup_append]
      refine ⟨ha.reduceOption_nodup, hb.reduceOption_nodup, ?_⟩
      rintro x hx y hy rfl
      rw [List.reduceOption_mem_iff] at hx hy
      exact hdis x hx hy
    rw [setNames_list_eq, if_pos ⟨hlen, hnd⟩]
    exact ⟨_, rfl, mk_ok hlen hnd, rfl, rfl⟩

/-- The vectors of the grown object. -/
theorem vector_inserted {o ins r : Obj V} (h : o.WF) (hi : ins.WF) (ax : Ax)
    (hoff : (o.axis ax.off).len = (ins.axis ax.off).len) {i : Nat} (hil : i ≤ (o.axis ax).len)
    (hd : r.data = insertData ax (o.axis ax).len o.data ins.data i) (k m : Nat)
    (hm : m = (ins.axis ax).len) (hk : k < (o.axis ax).len + m) :
    r.vector ax k = if k < i then o.vector ax k
      else if k < i + m then ins.vector ax (k - i)
      else o.vector ax (k - m) := by
  cases ax with
  | point =>
    simp only [Obj.axis, Ax.off] at hoff hil hd hm hk
    simp only [vector, hd, insertData_point h.rows hil]
    have lt : (o.data.take i).length = i := by simp [h.rows]; omega
    have li : ins.data.length = ins.pts.len := hi.rows
    by_cases h1 : k < i
    · rw [if_pos h1, List.append_assoc, List.getElem?_append_left (by omega), List.getElem?_take_of_lt h1]
    · rw [if_neg h1]
      by_cases h2 : k < i + m
      · rw [if_pos h2, List.getElem?_append_left (by rw [List.length_append]; omega), List.getElem?_append_right (by omega), lt]
      · rw [if_neg h2, List.getElem?_append_right (by simp; omega), List.getElem?_drop]
        congr 2
        simp only [List.length_append, lt, li]; omega
  | feature =>
    simp only [Obj.axis, Ax.off] at hoff hil hd hm hk
    have hlen : o.data.length = ins.data.length := by rw [h.rows, hi.rows, hoff]
    have hrow := insertData_feature_row (m := ins.fts.len) hlen h.cols hil
    have hcols : ∀ q ∈ r.data, q.length = o.fts.len + m := by
      intro q hq
      rw [hd] at hq
      obtain ⟨p, hp⟩ := List.mem_iff_getElem?.1 hq
      rw [hrow] at hp
      cases h1 : o.data[p]? with
      | none => rw [h1] at hp; simp at hp
      | some a =>
        cases h2 : ins.data[p]? with
        | none => rw [h1, h2] at hp; simp at hp
        | some b =>
          rw [h1, h2] at hp; simp at hp; subst hp
          have := h.cols a (List.mem_of_getElem? h1)
          have := hi.cols b (List.mem_of_getElem? h2)
          simp; omega
    show r.data.filterMap (·[k]?) = _
    apply List.ext_getElem?
    intro p
    rw [getElem?_filterMap_col (fun q hq => by rw [hcols q hq]; exact hk), hd, hrow]
    cases h1 : o.data[p]? with
    | none =>
      have h2 : ins.data[p]? = none := by
        rw [List.getElem?_eq_none_iff] at h1 ⊢; omega
      simp only [Option.bind_none]
      split
      · show none = (o.data.filterMap (·[k]?))[p]?
        rw [getElem?_filterMap_col (fun q hq => by rw [h.cols q hq]; omega), h1]; rfl
      · split
        · show none = (ins.data.filterMap (·[k - i]?))[p]?
          rw [getElem?_filterMap_col (fun q hq => by rw [hi.cols q hq]; omega), h2]; rfl
        · show none = (o.data.filterMap (·[k - m]?))[p]?
          rw [getElem?_filterMap_col (fun q hq => by rw [h.cols q hq]; omega), h1]; rfl
    | some a =>
      have hp : p < ins.data.length := by rw [← hlen]; exact (List.getElem?_eq_some_iff.1 h1).1
      have h2 : ins.data[p]? = some ins.data[p] := List.getElem?_eq_getElem hp
      have la := h.cols a (List.mem_of_getElem? h1)
      have lb := hi.cols _ (List.mem_of_getElem? h2)
      rw [h2]
      simp only [Option.map_some, Option.bind_some]
      have lt : (a.take i).length = i := by simp; omega
      split
      · next hki =>
        show _ = (o.data.filterMap (·[k]?))[p]?
        rw [getElem?_filterMap_col (fun q hq => by rw [h.cols q hq]; omega), h1]
        rw [List.append_assoc, List.getElem?_append_left (by omega), List.getElem?_take_of_lt hki]; rfl
      · split
        · show _ = (ins.data.filterMap (·[k - i]?))[p]?
          rw [getElem?_filterMap_col (fun q hq => by rw [hi.cols q hq]; omega), h2]
          rw [List.getElem?_append_left (by simp; omega), List.getElem?_append_right (by omega), lt]; rfl
        · show _ = (o.data.filterMap (·[k - m]?))[p]?
          rw [getElem?_filterMap_col (fun q hq => by rw [h.cols q hq]; omega), h1]
          rw [List.getElem?_append_right (by simp; omega), List.getElem?_drop]
          simp only [Option.bind_some]
          congr 1
          simp only [List.length_append, lt, lb]; omega

/-- Everything about the grown object. -/
theorem inserted_lines {o ins r : Obj V} (h : o.WF) (hi : ins.WF) (ax : Ax)
    (hoff : (o.axis ax.off).len = (ins.axis ax.off).len) {i : Nat} (hil : i ≤ (o.axis ax).len)
    (hd : r.data = insertData ax (o.axis ax).len o.data ins.data i)
    (hlen : (r.axis ax).len = (o.axis ax).len + (ins.axis ax).len)
    (hn : (r.axis ax).getNames = (o.axis ax).getNames.take i ++ (ins.axis ax).getNames ++
      (o.axis ax).getNames.drop i) :
    r.lines ax = (o.lines ax).take i ++ ins.lines ax ++ (o.lines ax).drop i := by
  have ln := (h.axisOk ax).length_getNames
  have li := (hi.axisOk ax).length_getNames
  have lt : ((o.lines ax).take i).length = i := by rw [List.length_take, length_lines]; omega
  have ltn : ((o.axis ax).getNames.take i).length = i := by rw [List.length_take]; omega
  apply List.ext_getElem?
  intro k
  by_cases hk : k < (o.axis ax).len + (ins.axis ax).len
  · rw [getElem?_lines r ax (by omega), vector_inserted h hi ax hoff hil hd k _ rfl hk, hn]
    by_cases h1 : k < i
    · rw [if_pos h1, List.append_assoc, List.append_assoc, List.getElem?_append_left (by omega),
        List.getElem?_append_left (l₁ := (o.lines ax).take i) (by omega),
        List.getElem?_take_of_lt h1, List.getElem?_take_of_lt h1, getElem?_lines o ax (by omega)]
    · rw [if_neg h1]
      by_cases h2 : k < i + (ins.axis ax).len
      · rw [if_pos h2, List.getElem?_append_left (by simp; omega), List.getElem?_append_right (by omega), ltn]
        rw [List.getElem?_append_left (l₁ := (o.lines ax).take i ++ ins.lines ax) (by simp [length_lines]; omega),
          List.getElem?_append_right (l₁ := (o.lines ax).take i) (by omega), lt, getElem?_lines ins ax (by omega)]
      · rw [if_neg h2, List.getElem?_append_right (by simp; omega), List.getElem?_drop]
        rw [List.getElem?_append_right (l₁ := (o.lines ax).take i ++ ins.lines ax) (by simp [length_lines]; omega),
          List.getElem?_drop]
        simp only [List.length_append, ltn, li, lt, length_lines]
        rw [show i + (k - (i + (ins.axis ax).len)) = k - (ins.axis ax).len by omega,
          getElem?_lines o ax (by omega)]
  · rw [List.getElem?_eq_none (by rw [length_lines]; omega), List.getElem?_eq_none]
    simp [length_lines]; omega

/-- The grown object is well formed. -/
theorem inserted_wf {o ins r : Obj V} (h : o.WF) (hi : ins.WF) (ax : Ax)
    (hoff : (o.axis ax.off).len = (ins.axis ax.off).len) {i : Nat} (hil : i ≤ (o.axis ax).len)
    (hd : r.data = insertData ax (o.axis ax).len o.data ins.data i)
    (hlen : (r.axis ax).len = (o.axis ax).len + (ins.axis ax).len) (hok : (r.axis ax).Ok)
    (hoffr : r.axis ax.off = o.axis ax.off) : r.WF := by
  cases ax with
  | point =>
    simp only [Obj.axis, Ax.off] at *
    rw [insertData_point h.rows hil] at hd
    refine ⟨?_, ?_, hok, by rw [hoffr]; exact h.fts⟩
    · rw [hd, hlen]; simp [h.rows, hi.rows]; omega
    · intro q hq
      rw [hd] at hq
      rw [hoffr]
      simp only [List.mem_append] at hq
      rcases hq with (hq | hq) | hq
      · exact h.cols q (List.mem_of_mem_take hq)
      · rw [hoff]; exact hi.cols q hq
      · exact h.cols q (List.mem_of_mem_drop hq)
  | feature =>
    simp only [Obj.axis, Ax.off] at *
    have hl2 : o.data.length = ins.data.length := by rw [h.rows, hi.rows, hoff]
    have hrow := insertData_feature_row (m := ins.fts.len) hl2 h.cols hil
    refine ⟨?_, ?_, by rw [hoffr]; exact h.pts, hok⟩
    · rw [hd, hoffr]
      have : (insertData .feature o.fts.len o.data ins.data i).length = o.data.length := by
        simp only [insertData]; split
        · simp [hl2]
        · split <;> simp [hl2]
      rw [this, h.rows]
    · intro q hq
      rw [hd] at hq
      obtain ⟨p, hp⟩ := List.mem_iff_getElem?.1 hq
      rw [hrow] at hp
      cases h1 : o.data[p]? with
      | none => rw [h1] at hp; simp at hp
      | some a =>
        cases h2 : ins.data[p]? with
        | none => rw [h1, h2] at hp; simp at hp
        | some b =>
          rw [h1, h2] at hp; simp at hp; subst hp
          have := h.cols a (List.mem_of_getElem? h1)
          have := hi.cols b (List.mem_of_getElem? h2)
          rw [hlen]; simp; omega

end Obj
end Nimble
