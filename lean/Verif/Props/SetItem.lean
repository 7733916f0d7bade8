import Verif.Props.GetItem

/-!
# C54: assignment writes exactly the addressed cells
-/

namespace Nimble
namespace Obj
variable {V : Type}

/-- `o'` is `o` with `v` written in the cells `(i, j)`, `i ∈ ps`, `j ∈ fs`. -/
structure Written (o o' : Obj V) (ps fs : List Nat) (v : V) : Prop where
  wf : o'.WF
  pts : o'.pts = o.pts
  fts : o'.fts = o.fts
  cell : ∀ i j, i < o.pts.len → j < o.fts.len →
    o'.elem? i j = if i ∈ ps ∧ j ∈ fs then some v else o.elem? i j

theorem elem?_set (o : Obj V) (a b : Nat) (v : V) (i j : Nat) (h : o.WF) (ha : a < o.pts.len) (hb : b < o.fts.len) :
    elem? ({ o with data := o.data.modify a (fun r => r.set b v) } : Obj V) i j =
      if i = a ∧ j = b then some v else o.elem? i j := by
  unfold elem?
  simp only [List.getElem?_modify]
  by_cases hi : a = i
  · subst hi
    obtain ⟨row, h1, h2, h3⟩ := h.vector_point ha
    rw [h1]
    simp only [if_true, Option.map_eq_map, Option.map_some, Option.bind_some, true_and]
    by_cases hj : j = b
    · subst hj
      rw [if_pos rfl, List.getElem?_set_self (by omega)]
    · rw [if_neg hj, List.getElem?_set_ne (fun e => hj e.symm)]
  · have h1 : ¬ (i = a ∧ j = b) := fun e => hi e.1.symm
    rw [if_neg h1]
    simp only [if_neg hi, Option.map_eq_map, Option.map_id']

theorem wf_set {o : Obj V} (h : o.WF) (a b : Nat) (v : V) :
    ({ o with data := o.data.modify a (fun r => r.set b v) } : Obj V).WF := by
  refine ⟨?_, ?_, h.pts, h.fts⟩
  · show (o.data.modify _ _).length = _
    rw [List.length_modify]; exact h.rows
  · intro r hr
    obtain ⟨k, hk, rfl⟩ := List.mem_iff_getElem.1 hr
    rw [List.getElem_modify]
    have hmem : o.data[k]'(by simpa using hk) ∈ o.data := List.getElem_mem _
    have := h.cols _ hmem
    split <;> simp [this]

theorem setLoop_spec {v : V} (cs : List (Int × Int)) : ∀ (o : Obj V), o.WF →
    (∀ p ∈ cs, ∃ a b : Nat, p = ((a : Int), (b : Int)) ∧ a < o.pts.len ∧ b < o.fts.len) →
    ∃ o', setLoop v cs o = (o', .ok ()) ∧ o'.WF ∧ o'.pts = o.pts ∧ o'.fts = o.fts ∧
      ∀ i j : Nat, o'.elem? i j = if ((i : Int), (j : Int)) ∈ cs then some v else o.elem? i j := by
  induction cs with
  | nil => intro o h _; exact ⟨o, rfl, h, rfl, rfl, fun i j => by simp⟩
  | cons p cs ih =>
    intro o h hb
    obtain ⟨a, b, rfl, ha, hb'⟩ := hb p (by simp)
    have p1 : pyIndex o.pts.len (a : Int) = .ok a := by unfold pyIndex; rw [if_pos (by omega)]; rfl
    have p2 : pyIndex o.fts.len (b : Int) = .ok b := by unfold pyIndex; rw [if_pos (by omega)]; rfl
    have hs : o.setElem (a : Int) (b : Int) v =
        .ok { o with data := o.data.modify a (fun r => r.set b v) } := by
      simp only [setElem, p1, p2, bind, Except.bind, pure, Except.pure]
    obtain ⟨o', h1, h2, h3, h4, h5⟩ := ih { o with data := o.data.modify a (fun r => r.set b v) }
      (wf_set h a b v) (fun q hq => hb q (by simp [hq]))
    refine ⟨o', ?_, h2, h3, h4, ?_⟩
    · simp only [setLoop, hs]
      exact h1
    · intro i j
      rw [h5, elem?_set o a b v i j h ha hb']
      by_cases hm : ((i : Int), (j : Int)) ∈ cs
      · rw [if_pos hm, if_pos (by simp [hm])]
      · rw [if_neg hm]
        by_cases he : i = a ∧ j = b
        · rw [if_pos he, if_pos (by simp [he.1, he.2])]
        · rw [if_neg he, if_neg]
          intro hc
          rcases List.mem_cons.1 hc with hc | hc
          · injection hc with e1 e2
            exact he ⟨by omega, by omega⟩
          · exact hm hc

theorem mem_cells {ps fs : List Nat} {i j : Nat} :
    ((i : Int), (j : Int)) ∈ cells (ps.map (fun (i : Nat) => (i : Int))) (fs.map (fun (i : Nat) => (i : Int))) ↔
      i ∈ ps ∧ j ∈ fs := by
  unfold cells
  simp only [List.mem_flatMap, List.mem_map, Prod.mk.injEq]
  constructor
  · rintro ⟨x, ⟨a, ha, rfl⟩, y, ⟨b, hb, rfl⟩, h1, h2⟩
    have e1 : a = i := by omega
    have e2 : b = j := by omega
    subst e1; subst e2
    exact ⟨ha, hb⟩
  · rintro ⟨h1, h2⟩
    exact ⟨i, ⟨i, h1, rfl⟩, j, ⟨j, h2, rfl⟩, rfl, rfl⟩

theorem cells_nat {ps fs : List Nat} {p : Int × Int}
    (h : p ∈ cells (ps.map (fun (i : Nat) => (i : Int))) (fs.map (fun (i : Nat) => (i : Int)))) :
    ∃ a b : Nat, p = ((a : Int), (b : Int)) ∧ a ∈ ps ∧ b ∈ fs := by
  unfold cells at h
  simp only [List.mem_flatMap, List.mem_map] at h
  obtain ⟨x, ⟨a, ha, rfl⟩, y, ⟨b, hb, rfl⟩, rfl⟩ := h
  exact ⟨a, b, rfl, ha, hb⟩

/-- The key is no single identifier and is not recognised as the whole axis: either it selects other
positions than all of them in order, or it is a boolean key. -/
def Listed (a : AxisSt) (k : AxKey) (idx : List Nat) : Prop :=
  k.isSingle = false ∧ idx ≠ List.range a.len

/-- **C54** `obj[x, y] = v` writes `v` in exactly the addressed cells and changes nothing else, for
two single identifiers and for two keys that are no single identifiers and do not select a whole
axis; a key that denotes nothing is refused and leaves the object unchanged. -/
theorem C54_setitem_partial {o : Obj V} (h : o.WF) (hp0 : 0 < o.pts.len) (hf0 : 0 < o.fts.len)
    {x y : AxKey} (hx : Plain x) (hy : Plain y) (v : V) :
    (∀ ps fs, AxSelects o.pts x ps → AxSelects o.fts y fs →
      (x.isSingle = true ∧ y.isSingle = true) ∨ (Listed o.pts x ps ∧ Listed o.fts y fs) →
      ∃ o', o.setitem x y v = (o', .ok ()) ∧ Written o o' ps fs v) ∧
    ((∀ ps, ¬ AxSelects o.pts x ps) ∨ (∀ fs, ¬ AxSelects o.fts y fs) →
      ∃ e, o.setitem x y v = (o, .error e)) := by
  constructor
  · rintro ps fs hps hfs (⟨h1, h2⟩ | ⟨⟨h1, h3⟩, ⟨h2, h4⟩⟩)
    · cases x with
      | multi _ => cases h1
      | single i =>
        cases y with
        | multi _ => cases h2
        | single j =>
          obtain ⟨a, ha, rfl⟩ := hps
          obtain ⟨b, hb, rfl⟩ := hfs
          have hal := ha.lt h.pts
          have hbl := hb.lt h.fts
          have e1 := (getIndex_denotes h.pts (id := i) hx true a).2 ⟨a, rfl, ha⟩
          have e2 := (getIndex_denotes h.fts (id := j) hy true b).2 ⟨b, rfl, hb⟩
          have p1 : pyIndex o.pts.len (a : Int) = .ok a := by unfold pyIndex; rw [if_pos (by omega)]; rfl
          have p2 : pyIndex o.fts.len (b : Int) = .ok b := by unfold pyIndex; rw [if_pos (by omega)]; rfl
          have hs : o.setElem (a : Int) (b : Int) v =
              .ok { o with data := o.data.modify a (fun r => r.set b v) } := by
            simp only [setElem, p1, p2, bind, Except.bind, pure, Except.pure]
          refine ⟨{ o with data := o.data.modify a (fun r => r.set b v) }, ?_, wf_set h a b v, rfl, rfl, ?_⟩
          · simp only [setitem, setKey, e1, e2, Except.map, hs]
          · intro i j _ _
            rw [elem?_set o a b v i j h hal hbl]
            simp only [List.mem_singleton]
    · cases x with
      | single _ => cases h1
      | multi kx =>
        cases y with
        | single _ => cases h2
        | multi ky =>
          obtain ⟨hn1, hb1⟩ := hps.valid h.pts hp0
          obtain ⟨hn2, hb2⟩ := hfs.valid h.fts hf0
          obtain ⟨p, hp, hr⟩ := (axisKey_selects h.pts hp0 hx ps).1 hps
          obtain ⟨q, hq, hr'⟩ := (axisKey_selects h.fts hf0 hy fs).1 hfs
          cases p with
          | none => exact absurd hr h3
          | some l =>
            cases q with
            | none => exact absurd hr' h4
            | some m =>
              have hr : l = _ := hr
              have hr' : m = _ := hr'
              have hp : processMultiple o.pts kx = .ok (some l) := hp
              have hq : processMultiple o.fts ky = .ok (some m) := hq
              have hmain : ∃ o', setLoop v (cells l m) o = (o', .ok ()) ∧ Written o o' ps fs v := by
                obtain ⟨o', g1, g2, g3, g4, g5⟩ := setLoop_spec (v := v) (cells l m) o h (by
                  intro c hc
                  rw [hr, hr'] at hc
                  obtain ⟨a, b, rfl, ha, hb⟩ := cells_nat hc
                  exact ⟨a, b, rfl, hb1 a ha, hb2 b hb⟩)
                refine ⟨o', g1, g2, g3, g4, ?_⟩
                intro i j _ _
                rw [g5, hr, hr']
                simp only [mem_cells]
              obtain ⟨o', g1, g2⟩ := hmain
              refine ⟨o', ?_, g2⟩
              simp only [setitem, setKey, hp, hq, Except.map, setMany, setIter]
              by_cases hl : l.isEmpty = true
              · rw [if_pos hl]
                have : l = [] := List.isEmpty_iff.1 hl
                subst this
                exact g1
              · rw [if_neg hl]; exact g1
  · intro hno
    have herr : ∀ (a : AxisSt) (k : AxKey) (e : Err), axisKey a k = .error e → setKey a k = .error e := by
      intro a k e he
      cases k with
      | single i =>
        simp only [axisKey] at he
        simp only [setKey]
        cases hg : a.getIndex i true with
        | ok z => rw [hg] at he; cases he
        | error e' => rw [hg] at he; cases he; rfl
      | multi k =>
        simp only [axisKey] at he
        simp only [setKey, he]; rfl
    rcases hno with hno | hno
    · obtain ⟨e, he⟩ := axisKey_error h.pts hp0 hx hno
      exact ⟨e, by unfold setitem; rw [herr _ _ _ he]⟩
    · obtain ⟨e, he⟩ := axisKey_error h.fts hf0 hy hno
      unfold setitem
      cases hk : setKey o.pts x with
      | error e' => exact ⟨e', rfl⟩
      | ok a => exact ⟨e, by simp only [herr _ _ _ he]⟩

/-- What the object holds afterwards and whether the assignment was accepted. -/
def setOut (r : Obj Nat × Res Unit) : List (List Nat) × Bool :=
  (r.1.data, r.2.toOption.isSome)

example : setOut (giEx.setitem (.multi (.list [.id (.str "d"), .id (.int 1)]))
    (.multi (.slice (some (.int 1)) none none)) 99) =
      ([[0, 1, 2], [10, 99, 99], [20, 21, 22], [30, 99, 99]], true) := by decide
example : setOut (giEx.setitem (.single (.str "c")) (.single (.int (-1))) 99) =
      ([[0, 1, 2], [10, 11, 12], [20, 21, 99], [30, 31, 32]], true) := by decide

/-- **C54 does not hold in general.** Assigning to a whole point (`obj['a', :] = v`, also
`obj['a'] = v`), to all elements (`obj[:, :] = v`) and to one point and several features
(`obj['a', [0, 1]] = v`) raises a `TypeError` although every key denotes positions. -/
theorem C54_whole_axis_violated :
    giEx.setitem (.single (.str "a")) fullSlice 99 = (giEx, .error .TypeError) ∧
    giEx.setitem fullSlice fullSlice 99 = (giEx, .error .TypeError) ∧
    giEx.setitem (.single (.str "a")) (.multi (.list [.id (.int 0), .id (.int 1)])) 99 =
      (giEx, .error .TypeError) ∧
    giEx.setitem (.multi (.list [.id (.int 0), .id (.int 1)])) fullSlice 99 = (giEx, .error .TypeError) :=
  ⟨rfl, rfl, rfl, rfl⟩

end Obj
end Nimble
