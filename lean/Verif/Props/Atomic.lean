import Verif.Model.Atomic
import Verif.Props.Insert
import Verif.Props.Sort
import Verif.Props.History
import Verif.Props.Structural

/-!
# C46: refused operations leave the object unchanged

The programs of `Model/Atomic.lean` write the object in the order of the code.
-/

namespace Nimble
open Obj Act
variable {V : Type}

/-- The two states show the same data, shape and names. -/
structure Unchanged (o o' : Obj V) : Prop where
  data : o'.data = o.data
  ptsLen : o'.pts.len = o.pts.len
  ftsLen : o'.fts.len = o.fts.len
  ptsNames : o'.pts.getNames = o.pts.getNames
  ftsNames : o'.fts.getNames = o.fts.getNames

theorem Unchanged.refl (o : Obj V) : Unchanged o o := ⟨rfl, rfl, rfl, rfl, rfl⟩

theorem Unchanged.trans {a b c : Obj V} (h : Unchanged a b) (g : Unchanged b c) : Unchanged a c :=
  ⟨g.data.trans h.data, g.ptsLen.trans h.ptsLen, g.ftsLen.trans h.ftsLen,
    g.ptsNames.trans h.ptsNames, g.ftsNames.trans h.ftsNames⟩

theorem Unchanged.axLen {o o' : Obj V} (h : Unchanged o o') (ax : Ax) :
    (o'.axis ax).len = (o.axis ax).len := by cases ax; exact h.ptsLen; exact h.ftsLen

theorem Unchanged.axNames {o o' : Obj V} (h : Unchanged o o') (ax : Ax) :
    (o'.axis ax).getNames = (o.axis ax).getNames := by cases ax; exact h.ptsNames; exact h.ftsNames

theorem unchanged_of_axes {o o' : Obj V} (ax : Ax) (hd : o'.data = o.data)
    (h1 : (o'.axis ax).len = (o.axis ax).len) (h2 : (o'.axis ax.off).len = (o.axis ax.off).len)
    (h3 : (o'.axis ax).getNames = (o.axis ax).getNames)
    (h4 : (o'.axis ax.off).getNames = (o.axis ax.off).getNames) : Unchanged o o' := by
  cases ax with
  | point => exact ⟨hd, h1, h2, h3, h4⟩
  | feature => exact ⟨hd, h2, h1, h4, h3⟩

/-! ### Touching an axis -/

/-- `o'` is `o`, except that default names may have been generated along `ax`. -/
def MaybeTouched (ax : Ax) (o o' : Obj V) : Prop := o' = o ∨ o' = o.touchAxis ax

private theorem axis_setAxis (o : Obj V) (ax : Ax) (a : AxisSt) : (o.setAxis ax a).axis ax = a := by
  cases ax <;> rfl

private theorem axis_off_setAxis (o : Obj V) (ax : Ax) (a : AxisSt) :
    (o.setAxis ax a).axis ax.off = o.axis ax.off := by cases ax <;> rfl

private theorem data_setAxis (o : Obj V) (ax : Ax) (a : AxisSt) : (o.setAxis ax a).data = o.data := by
  cases ax <;> rfl

private theorem setAxis_setAxis (o : Obj V) (ax : Ax) (a b : AxisSt) :
    (o.setAxis ax a).setAxis ax b = o.setAxis ax b := by cases ax <;> rfl

private theorem setAxis_self (o : Obj V) (ax : Ax) : o.setAxis ax (o.axis ax) = o := by cases ax <;> rfl

private theorem off_off (ax : Ax) : ax.off.off = ax := by cases ax <;> rfl

private theorem touch_touch (a : AxisSt) : a.touch.touch = a.touch := by
  cases h : a.tbl <;> simp [AxisSt.touch, h]

private theorem touchAxis_touchAxis (o : Obj V) (ax : Ax) :
    (o.touchAxis ax).touchAxis ax = o.touchAxis ax := by
  unfold touchAxis
  rw [axis_setAxis, setAxis_setAxis, touch_touch]

theorem MaybeTouched.trans {ax : Ax} {a b c : Obj V} (h : MaybeTouched ax a b)
    (g : MaybeTouched ax b c) : MaybeTouched ax a c := by
  rcases h with rfl | rfl
  · exact g
  · rcases g with rfl | rfl
    · exact Or.inr rfl
    · exact Or.inr (touchAxis_touchAxis a ax)

theorem MaybeTouched.unchanged {ax : Ax} {o o' : Obj V} (h : MaybeTouched ax o o') : Unchanged o o' := by
  rcases h with rfl | rfl
  · exact Unchanged.refl _
  · refine unchanged_of_axes ax (data_setAxis ..) ?_ ?_ ?_ ?_
    · simp only [touchAxis, axis_setAxis, touch_len]
    · simp only [touchAxis, axis_off_setAxis]
    · simp only [touchAxis, axis_setAxis, touch_getNames]
    · simp only [touchAxis, axis_off_setAxis]

theorem MaybeTouched.wf {ax : Ax} {o o' : Obj V} (h : MaybeTouched ax o o') (hw : o.WF) : o'.WF := by
  rcases h with rfl | rfl
  · exact hw
  · exact wf_setAxis hw ax (hw.axisOk ax).touch (touch_len _)

theorem MaybeTouched.off {ax : Ax} {o o' : Obj V} (h : MaybeTouched ax o o') :
    o'.axis ax.off = o.axis ax.off := by
  rcases h with rfl | rfl
  · rfl
  · exact axis_off_setAxis ..

theorem getIndex_touch (a : AxisSt) (id : Ident) (af : Bool) :
    a.touch.getIndex id af = a.getIndex id af := by
  cases hn : a.tbl with
  | none => cases id <;> simp [AxisSt.touch, hn, AxisSt.getIndex, AxisSt.getIndexByName, defaultTable]
  | some t => simp [AxisSt.touch, hn]

theorem MaybeTouched.getIndex {ax : Ax} {o o' : Obj V} (h : MaybeTouched ax o o') (id : Ident) :
    (o'.axis ax).getIndex id = (o.axis ax).getIndex id := by
  rcases h with rfl | rfl
  · rfl
  · simp only [touchAxis, axis_setAxis, getIndex_touch]

theorem MaybeTouched.resolve {ax : Ax} {o o' : Obj V} (h : MaybeTouched ax o o') (ids : List Ident) :
    resolveIdents (o'.axis ax) ids = resolveIdents (o.axis ax) ids := by
  induction ids with
  | nil => rfl
  | cons id ids ih => simp only [resolveIdents, h.getIndex, ih]

/-! ### Running the programs -/

theorem andThen_ok {α β : Type} {m : Act V α} {f : α → Act V β} {o o' : Obj V} {a : α}
    (h : m o = (o', .ok a)) : andThen m f o = f a o' := by
  simp only [andThen, h]

theorem andThen_error {α β : Type} {m : Act V α} {f : α → Act V β} {o o' : Obj V} {e : Err}
    (h : m o = (o', .error e)) : andThen m f o = (o', .error e) := by
  simp only [andThen, h]

theorem andThen_read_ok {α β : Type} {g : Obj V → Res α} {f : α → Act V β} {o : Obj V} {a : α}
    (h : g o = .ok a) : andThen (Act.read g) f o = f a o := by
  simp only [andThen, Act.read, h]

theorem andThen_read_error {α β : Type} {g : Obj V → Res α} {f : α → Act V β} {o : Obj V} {e : Err}
    (h : g o = .error e) : andThen (Act.read g) f o = (o, .error e) := by
  simp only [andThen, Act.read, h]

theorem andThen_look {α β : Type} {g : Obj V → α} {f : α → Act V β} {o : Obj V} :
    andThen (Act.read fun o => .ok (g o)) f o = f (g o) o := rfl

theorem andThen_write {β : Type} {g : Obj V → Obj V} {f : Unit → Act V β} {o : Obj V} :
    andThen (Act.write g) f o = f () (g o) := rfl

theorem cond_true {α : Type} {c : Obj V → Bool} {m n : Act V α} {o : Obj V} (h : c o = true) :
    Act.cond c m n o = m o := by simp [Act.cond, h]

theorem cond_false {α : Type} {c : Obj V → Bool} {m n : Act V α} {o : Obj V} (h : c o = false) :
    Act.cond c m n o = n o := by simp [Act.cond, h]

theorem raiseIf_no {β : Type} {c : Obj V → Bool} {e : Err} {f : Unit → Act V β} {o : Obj V}
    (hc : c o = false) : andThen (raiseIf c e) f o = f () o := by
  simp [andThen, raiseIf, hc]

theorem raiseIf_yes {β : Type} {c : Obj V → Bool} {e : Err} {f : Unit → Act V β} {o : Obj V}
    (hc : c o = true) : andThen (raiseIf c e) f o = (o, .error e) := by
  simp [andThen, raiseIf, hc]

theorem getIndexA_run (ax : Ax) (id : Ident) (o : Obj V) :
    ∃ o', MaybeTouched ax o o' ∧ getIndexA ax id o = (o', (o.axis ax).getIndex id) := by
  refine ⟨o.setAxis ax ((o.axis ax).afterGetIndex id), ?_, ?_⟩
  · unfold AxisSt.afterGetIndex
    split
    · exact Or.inl (setAxis_self o ax)
    · cases id with
      | str s => exact Or.inr rfl
      | int i => exact Or.inl (setAxis_self o ax)
      | flt q => exact Or.inl (setAxis_self o ax)
  · unfold getIndexA
    rw [andThen_write]
    simp only [Act.read, axis_setAxis]
    congr 1
    unfold AxisSt.afterGetIndex
    split
    · rfl
    · cases id with
      | str s => exact getIndex_touch _ _ _
      | int i => rfl
      | flt q => rfl

theorem resolveA_run (ax : Ax) (ids : List Ident) (o : Obj V) :
    ∃ o', MaybeTouched ax o o' ∧ resolveA ax ids o = (o', resolveIdents (o.axis ax) ids) := by
  induction ids generalizing o with
  | nil => exact ⟨o, Or.inl rfl, rfl⟩
  | cons id ids ih =>
    obtain ⟨o1, h1, e1⟩ := getIndexA_run ax id o
    cases hi : (o.axis ax).getIndex id with
    | error e =>
      rw [hi] at e1
      refine ⟨o1, h1, ?_⟩
      simp only [resolveA, andThen_error e1, resolveIdents, hi, bind, Except.bind]
    | ok i =>
      rw [hi] at e1
      obtain ⟨o2, h2, e2⟩ := ih o1
      rw [h1.resolve] at e2
      refine ⟨o2, h1.trans h2, ?_⟩
      simp only [resolveA, andThen_ok e1, resolveIdents, hi, bind, Except.bind]
      cases hr : resolveIdents (o.axis ax) ids with
      | error e =>
        rw [hr] at e2
        simp only [andThen_error e2]
      | ok l =>
        rw [hr] at e2
        simp only [andThen_ok e2, Act.ret, pure, Except.pure]

/-- A whole-axis renaming writes nothing unless it succeeds. -/
theorem setNamesA_run (ax : Ax) (asg : Assign) (o : Obj V) :
    setNamesA ax asg o = match (o.axis ax).setNames asg with
      | .ok a => (o.setAxis ax a, .ok ())
      | .error e => (o, .error e) := by
  unfold setNamesA
  have hlen : ∀ a, (o.axis ax).setNames asg = .ok a → a.len = (o.axis ax).len := by
    intro a h
    unfold AxisSt.setNames at h
    split at h
    · cases h; rfl
    · split at h
      · cases h
      · split at h
        · cases h; rfl
        · obtain ⟨_, _, h⟩ := Res.bind_ok.1 h
          obtain ⟨_, _, h⟩ := Res.bind_ok.1 h
          cases h; rfl
    · split at h
      · cases h
      · split at h
        · cases h; rfl
        · obtain ⟨_, _, h⟩ := Res.bind_ok.1 h
          cases h; rfl
  cases hs : (o.axis ax).setNames asg with
  | error e => rw [andThen_read_error hs]
  | ok a =>
    rw [andThen_read_ok hs]
    simp only [Act.write, setTbl]
    rw [← hlen a hs]

/-- `permute` with the order resolved: the result is that of `applyOrder`, or nothing happened. -/
theorem permuteResolvedA_run {ax : Ax} {l : List Nat} {o : Obj V} (h : o.WF)
    (hb : ∀ i ∈ l, i < (o.axis ax).len) :
    (¬ l.Perm (List.range (o.axis ax).len) →
      permuteResolvedA ax l o = (o, .error .InvalidArgumentValue)) ∧
    (l.Perm (List.range (o.axis ax).len) → ∃ r, o.applyOrder ax l = .ok r ∧
      permuteResolvedA ax l o = (r, .ok ())) := by
  constructor
  · intro hp
    unfold permuteResolvedA
    by_cases hl : l.length = (o.axis ax).len
    · rw [raiseIf_no (by simpa using hl)]
      have hn : ¬ l.Nodup := fun hn => hp (perm_range_of_nodup hn hb hl)
      exact raiseIf_yes (by simpa using hn)
    · exact raiseIf_yes (by simpa using hl)
  · intro hp
    obtain ⟨r, hr, _⟩ := applyOrder_spec h ax hp
    refine ⟨r, hr, ?_⟩
    have hl : l.length = (o.axis ax).len := by simpa using hp.length_eq
    unfold permuteResolvedA
    rw [raiseIf_no (by simpa using hl), raiseIf_no (by simpa using perm_nodup hp)]
    unfold applyOrder at hr
    by_cases h1 : (o.axis ax).len ≤ 1
    · rw [if_pos h1] at hr
      cases hr
      rw [cond_true (by simpa using h1)]; rfl
    · rw [if_neg h1] at hr
      rw [cond_false (by simpa using h1), andThen_write]
      have hax : ({ o with data := permuteData ax o.data l } : Obj V).axis ax = o.axis ax := by
        cases ax <;> rfl
      cases ht : (o.axis ax).tbl with
      | none =>
        rw [ht] at hr
        simp only [Except.ok.injEq] at hr
        rw [cond_false (by rw [hax, ht]; rfl), ← hr]; rfl
      | some t =>
        rw [ht] at hr
        dsimp only at hr
        rw [cond_true (by rw [hax, ht]; rfl), andThen_look, setNamesA_run, hax, AxisSt.getNames_of_some ht]
        cases hs : (o.axis ax).setNames (.list (pick t.inv l)) with
        | error e => rw [hs] at hr; simp [bind, Except.bind] at hr
        | ok a =>
          rw [hs] at hr
          simp only [bind, Except.bind, pure, Except.pure, Except.ok.injEq] at hr
          simp only [hr]

theorem selectedSpec_unchanged {o o' r r' : Obj V} {ax : Ax} {l : List Nat}
    (h : SelectedSpec o r ax l) (h' : SelectedSpec o' r' ax l) (hu : Unchanged o o') :
    Unchanged r r' := by
  refine unchanged_of_axes ax ?_ ?_ ?_ ?_ ?_
  · rw [h'.data, h.data, hu.data]
  · rw [h'.len, h.len]
  · rw [h'.offLen, h.offLen, hu.axLen]
  · rw [h'.names, h.names, hu.axNames]
  · rw [h'.offNames, h.offNames, hu.axNames]

theorem permuteA_run {o : Obj V} (h : o.WF) (ax : Ax) (order : List Ident) :
    (∀ e, o.permute ax order = .error e →
      ∃ o', permuteA ax order o = (o', .error e) ∧ MaybeTouched ax o o') ∧
    (∀ r, o.permute ax order = .ok r →
      ∃ o', permuteA ax order o = (o', .ok ()) ∧ o'.WF ∧ Unchanged r o') := by
  obtain ⟨o1, h1, e1⟩ := resolveA_run ax order o
  have w1 := h1.wf h
  have hu := h1.unchanged
  unfold permuteA
  cases hl : resolveIdents (o.axis ax) order with
  | error e =>
    rw [hl] at e1
    have : o.permute ax order = .error e := by
      simp only [permute, hl, bind, Except.bind]
    rw [this]
    exact ⟨fun e' he => ⟨o1, by rw [andThen_error e1]; cases he; rfl, h1⟩, fun r hr => by cases hr⟩
  | ok l =>
    rw [hl] at e1
    rw [andThen_ok e1]
    have hb : ∀ i ∈ l, i < (o.axis ax).len := by
      intro i hi
      have hm := (resolveIdents_ok_iff _ _ _ (h.axisOk ax)).1 hl
      obtain ⟨k, hk, rfl⟩ := List.getElem_of_mem hi
      have := congrArg (fun x => x[k]?) hm
      simp only [List.getElem?_map, List.getElem?_eq_getElem hk, Option.map_some] at this
      cases hk2 : order[k]? with
      | none => rw [hk2] at this; simp at this
      | some id =>
        rw [hk2] at this
        simp only [Option.map_some, Option.some.injEq] at this
        have := getIndex_bound (h.axisOk ax) this
        omega
    have hb1 : ∀ i ∈ l, i < (o1.axis ax).len := by rw [hu.axLen]; exact hb
    obtain ⟨p1, p2⟩ := permuteResolvedA_run w1 hb1
    rw [hu.axLen] at p1 p2
    have hperm : o.permute ax order = if l.length ≠ (o.axis ax).len then .error .InvalidArgumentValue
        else if ¬ l.Nodup then .error .InvalidArgumentValue else o.applyOrder ax l := by
      simp only [permute, hl, bind, Except.bind]
    by_cases hp : l.Perm (List.range (o.axis ax).len)
    · obtain ⟨r, hr, hs⟩ := applyOrder_spec h ax hp
      obtain ⟨r1, hr1, hrun⟩ := p2 hp
      obtain ⟨r1', hr1', hs1⟩ := applyOrder_spec w1 ax (l := l) (by rw [hu.axLen]; exact hp)
      rw [hr1] at hr1'
      cases hr1'
      rw [hperm, if_neg (by simpa using hp.length_eq), if_neg (by simpa using perm_nodup hp), hr]
      refine ⟨fun e he => by simp at he, fun r' he => ?_⟩
      simp only [Except.ok.injEq] at he
      subst he
      exact ⟨r1, hrun, hs1.wf, selectedSpec_unchanged hs hs1 hu⟩
    · have hbad : o.permute ax order = .error .InvalidArgumentValue := by
        rw [hperm]
        split
        · rfl
        · next hl' =>
          rw [if_pos]
          intro hn
          exact hp (perm_range_of_nodup hn hb (by simpa using hl'))
      rw [hbad]
      refine ⟨fun e he => ⟨o1, ?_, h1⟩, fun r hr => by simp at hr⟩
      simp only [Except.error.injEq] at he
      subst he
      exact p1 hp

theorem atomic_of_run {ax : Ax} {o : Obj V} {spec : Res (Obj V)} {run : Obj V × Res Unit}
    (h1 : ∀ e, spec = .error e → ∃ o', run = (o', .error e) ∧ MaybeTouched ax o o')
    (h2 : ∀ r, spec = .ok r → ∃ o', run = (o', .ok ()) ∧ o'.WF ∧ Unchanged r o') :
    (∀ e o', run = (o', .error e) → Unchanged o o') ∧
    (∀ o', run = (o', .ok ()) → ∃ r, spec = .ok r ∧ Unchanged r o') := by
  cases hp : spec with
  | error e =>
    obtain ⟨q, hq, hu⟩ := h1 e hp
    rw [hq]
    refine ⟨fun e' o' he => ?_, fun o' he => by simp at he⟩
    simp only [Prod.mk.injEq] at he
    rw [← he.1]; exact hu.unchanged
  | ok r =>
    obtain ⟨q, hq, _, hu⟩ := h2 r hp
    rw [hq]
    refine ⟨fun e' o' he => by simp at he, fun o' he => ⟨r, rfl, ?_⟩⟩
    simp only [Prod.mk.injEq] at he
    rw [← he.1]; exact hu

/-- C46. `permute(order)`: whatever the order, if it is refused the object shows what it showed
before, otherwise it shows the permuted object; the writes of data and names never end half-way. -/
theorem C46_permute_atomic {o : Obj V} (h : o.WF) (ax : Ax) (order : List Ident) :
    (∀ e o', permuteA ax order o = (o', .error e) → Unchanged o o') ∧
    (∀ o', permuteA ax order o = (o', .ok ()) → ∃ r, o.permute ax order = .ok r ∧ Unchanged r o') := by
  obtain ⟨h1, h2⟩ := permuteA_run h ax order
  exact atomic_of_run h1 h2

/-- C46. `setNames(assignments)`: a refused renaming changes nothing. -/
theorem C46_setNames_atomic (o : Obj V) (ax : Ax) (asg : Assign) :
    (∀ e o', setNamesA ax asg o = (o', .error e) → o' = o) ∧
    (∀ o', setNamesA ax asg o = (o', .ok ()) →
      ∃ a, (o.axis ax).setNames asg = .ok a ∧ o' = o.setAxis ax a) := by
  rw [setNamesA_run]
  cases hs : (o.axis ax).setNames asg with
  | error e =>
    refine ⟨fun e' o' he => ?_, fun o' he => by simp at he⟩
    simp only [Prod.mk.injEq] at he; exact he.1.symm
  | ok a =>
    refine ⟨fun e' o' he => by simp at he, fun o' he => ⟨a, rfl, ?_⟩⟩
    simp only [Prod.mk.injEq] at he; exact he.1.symm

/-! ### insert / append -/

theorem validateDisjoint_touch (a b : AxisSt) : validateDisjoint a.touch b = validateDisjoint a b := by
  cases h : a.tbl with
  | some t => simp [AxisSt.touch, h]
  | none =>
    cases h2 : b.tbl <;>
      simp [AxisSt.touch, h, h2, validateDisjoint, defaultTable, namesIntersect, PyDict.keys]

theorem insertPos_touch (a : AxisSt) (before : Option Ident) :
    insertPos a.touch before = insertPos a before := by
  cases before with
  | none => simp [insertPos, touch_len]
  | some id => simp only [insertPos, touch_len, getIndex_touch]

theorem insertPosA_run (ax : Ax) (before : Option Ident) (o : Obj V) :
    ∃ o', MaybeTouched ax o o' ∧ insertPosA ax before o = (o', insertPos (o.axis ax) before) := by
  cases before with
  | none => exact ⟨o, Or.inl rfl, rfl⟩
  | some id =>
    unfold insertPosA insertPos
    by_cases hc : id = .int (o.axis ax).len ∧ (o.axis ax).len ≠ 0
    · refine ⟨o, Or.inl rfl, ?_⟩
      dsimp only
      rw [if_pos hc, cond_true (by simpa using hc)]
      rfl
    · obtain ⟨o1, h1, e1⟩ := getIndexA_run ax id o
      refine ⟨o1, h1, ?_⟩
      dsimp only
      rw [if_neg hc, cond_false (by simpa using hc)]
      cases hi : (o.axis ax).getIndex id with
      | error e => rw [hi] at e1; rw [andThen_error e1]; rfl
      | ok i => rw [hi] at e1; rw [andThen_ok e1]; rfl

theorem validateInsertable_touched {ax : Ax} {o o' : Obj V} (h : MaybeTouched ax o o') (other : Obj V) :
    validateInsertable o' other ax = validateInsertable o other ax := by
  rcases h with rfl | rfl
  · rfl
  · unfold validateInsertable
    rw [show (o.touchAxis ax).axis ax.off = o.axis ax.off from axis_off_setAxis ..,
      show (o.touchAxis ax).axis ax = (o.axis ax).touch from axis_setAxis .., validateDisjoint_touch]

theorem alignNames_touched {ax : Ax} {o o' : Obj V} (h : MaybeTouched ax o o') (other : Obj V) :
    alignNames o' other ax = alignNames o other ax := by
  unfold alignNames
  rw [h.off]

/-- Updating length and names after the data: it cannot fail when no name occurs twice. -/
theorem insertedA_run {ax : Ax} {o ins : Obj V} {i : Nat} {c : AxisSt}
    (hc : insertedAxis (o.axis ax) (ins.axis ax) i = .ok c) (hl : c.len = (o.axis ax).len + (ins.axis ax).len) :
    insertedA ax ins i o = (o.setAxis ax c, .ok ()) := by
  unfold insertedA
  unfold insertedAxis at hc
  by_cases hb : ((o.axis ax).tbl.isNone && (ins.axis ax).tbl.isNone) = true
  · rw [if_pos hb] at hc
    rw [cond_true hb]
    simp only [Act.write, setLen]
    cases hc
    simp only [Bool.and_eq_true, Option.isNone_iff_eq_none] at hb
    rw [hb.1]
  · rw [if_neg hb] at hc
    rw [cond_false (Bool.eq_false_iff.2 hb), andThen_look, andThen_write, andThen_look, andThen_write, setNamesA_run]
    have e1 : ((o.touchAxis ax).setLen ax ((o.axis ax).len + (ins.axis ax).len)).axis ax =
        ⟨(o.axis ax).len + (ins.axis ax).len, (o.axis ax).touch.tbl⟩ := by
      simp only [setLen, axis_setAxis, touchAxis]
    have e2 : ((o.touchAxis ax).axis ax).getNames = (o.axis ax).getNames := by
      simp only [touchAxis, axis_setAxis, touch_getNames]
    rw [e1, e2, hc]
    simp only [setLen, touchAxis, setAxis_setAxis]

theorem insertA_run {o other : Obj V} (h : o.WF) (ho : other.WF) (ax : Ax) (before : Option Ident) :
    (∀ e, o.insert ax before other = .error e →
      ∃ o', insertA ax before other o = (o', .error e) ∧ MaybeTouched ax o o') ∧
    (∀ r, o.insert ax before other = .ok r →
      ∃ o', insertA ax before other o = (o', .ok ()) ∧ o'.WF ∧ Unchanged r o') := by
  obtain ⟨o1, h1, e1⟩ := insertPosA_run ax before o
  have w1 := h1.wf h
  have hu := h1.unchanged
  unfold insertA
  cases hi : insertPos (o.axis ax) before with
  | error e =>
    rw [hi] at e1
    have : o.insert ax before other = .error e := by simp only [Obj.insert, hi, bind, Except.bind]
    rw [this]
    exact ⟨fun e' he => ⟨o1, by rw [andThen_error e1]; cases he; rfl, h1⟩, fun r hr => by cases hr⟩
  | ok i =>
    rw [hi] at e1
    rw [andThen_ok e1]
    cases hv : validateInsertable o other ax with
    | error e =>
      have : o.insert ax before other = .error e := by simp only [Obj.insert, hi, hv, bind, Except.bind]
      rw [this, andThen_read_error (by rw [validateInsertable_touched h1, hv])]
      exact ⟨fun e' he => ⟨o1, by cases he; rfl, h1⟩, fun r hr => by cases hr⟩
    | ok u =>
      rw [andThen_read_ok (by rw [validateInsertable_touched h1, hv])]
      cases hal : alignNames o other ax with
      | error e =>
        have : o.insert ax before other = .error e := by
          simp only [Obj.insert, hi, hv, hal, bind, Except.bind]
        rw [this, andThen_read_error (by rw [alignNames_touched h1, hal])]
        exact ⟨fun e' he => ⟨o1, by cases he; rfl, h1⟩, fun r hr => by cases hr⟩
      | ok ins =>
        rw [andThen_read_ok (by rw [alignNames_touched h1, hal])]
        have hoff : (o.axis ax.off).len = (other.axis ax.off).len := by
          by_contra hne
          simp [validateInsertable, hne] at hv
        have hdis : NamesDisjoint (o.axis ax).getNames (other.axis ax).getNames := by
          rw [← validateDisjoint_iff (h.axisOk ax) (ho.axisOk ax)]
          unfold validateInsertable at hv
          rw [if_neg (by simpa using hoff)] at hv
          cases hx : validateDisjoint (o.axis ax) (other.axis ax) with
          | error e => rw [hx] at hv; simp [bind, Except.bind] at hv
          | ok u => rfl
        have A := (alignNames_spec h ho ax hoff).2 ins hal
        have hil := insertPos_le (h.axisOk ax) hi
        obtain ⟨c, hc1, hc2, hc3, hc4⟩ := insertedAxis_spec (h.axisOk ax) (A.wf.axisOk ax)
          (by rw [A.names]; exact hdis) hil
        have hil1 : i ≤ (o1.axis ax).len := by rw [hu.axLen]; exact hil
        obtain ⟨d, hd1, hd2, hd3, hd4⟩ := insertedAxis_spec (w1.axisOk ax) (A.wf.axisOk ax)
          (by rw [A.names, hu.axNames]; exact hdis) hil1
        have hins : o.insert ax before other = .ok (({ o with
            data := insertData ax (o.axis ax).len o.data ins.data i } : Obj V).setAxis ax c) := by
          simp only [Obj.insert, hi, hv, hal, hc1, bind, Except.bind, pure, Except.pure]
        rw [hins, andThen_write]
        refine ⟨fun e he => by simp at he, fun r hr => ?_⟩
        simp only [Except.ok.injEq] at hr
        have hrun := insertedA_run (o := ({ o1 with
            data := insertData ax (o1.axis ax).len o1.data ins.data i } : Obj V)) (ax := ax) (ins := ins)
            (i := i) (c := d) (by cases ax <;> exact hd1) (by cases ax <;> exact hd3)
        refine ⟨_, hrun, ?_, ?_⟩
        · have hoff' : (o1.axis ax.off).len = (ins.axis ax.off).len := by
            rw [hu.axLen, A.offLen, hoff]
          refine inserted_wf w1 A.wf ax hoff' hil1 (by cases ax <;> rfl) ?_ ?_ ?_
          · rw [axis_setAxis, hd3]
          · rw [axis_setAxis]; exact hd2
          · cases ax <;> rfl
        · subst hr
          refine unchanged_of_axes ax ?_ ?_ ?_ ?_ ?_
          · rw [data_setAxis, data_setAxis, hu.data, hu.axLen]
          · rw [axis_setAxis, axis_setAxis, hc3, hd3, hu.axLen]
          · rw [axis_off_setAxis, axis_off_setAxis]
            have := hu.axLen ax.off
            cases ax <;> exact this
          · rw [axis_setAxis, axis_setAxis, hc4, hd4, hu.axNames]
          · rw [axis_off_setAxis, axis_off_setAxis]
            have := hu.axNames ax.off
            cases ax <;> exact this

/-- C46. `insert(insertBefore, toInsert)` / `append(toInsert)`, along either axis, for every position
and every object: if it is refused the caller shows what it showed before - the data are written only
after everything that can be refused was checked -, otherwise it shows the grown object. -/
theorem C46_insert_atomic {o other : Obj V} (h : o.WF) (ho : other.WF) (ax : Ax) (before : Option Ident) :
    (∀ e o', insertA ax before other o = (o', .error e) → Unchanged o o') ∧
    (∀ o', insertA ax before other o = (o', .ok ()) →
      ∃ r, o.insert ax before other = .ok r ∧ Unchanged r o') := by
  obtain ⟨h1, h2⟩ := insertA_run h ho ax before
  exact atomic_of_run h1 h2

/-! ### extract / delete / retain -/

theorem targetsA_run (samp : List Nat → Nat → List Nat) (t : Bool) (ax : Ax) (sel : Selector V) (o : Obj V) :
    ∃ o', MaybeTouched ax o o' ∧ targetsA samp t ax sel o = (o', o.targets samp ax sel) := by
  refine ⟨if t then o.touchAxis ax else o, ?_, rfl⟩
  cases t
  · exact Or.inl rfl
  · exact Or.inr rfl

/-- Removing valid targets: the new object is built although the caller's data are already
reduced, and the caller ends with the names and length of `remaining`. -/
theorem removeA_run {o : Obj V} (h : o.WF) (ax : Ax) {tgt : List Nat} (ht : tgt.Nodup)
    (hb : ∀ i ∈ tgt, i < (o.axis ax).len) :
    ∃ r, o.selected ax tgt = .ok r ∧ SelectedSpec o r ax tgt ∧
      removeA ax tgt o = (o.remaining ax tgt tgt.length, .ok r) := by
  obtain ⟨r, hr, hs⟩ := selected_spec h ax ht hb
  refine ⟨r, hr, hs, ?_⟩
  unfold removeA
  rw [andThen_look, andThen_write, andThen_read_ok hr, andThen_write, andThen_write]
  simp only [Act.ret, remaining, setLen, setTbl, removeNames, hs.len]
  cases ax <;> rfl

/-- C46. `extract(...)` and `delete(...)`: if the call is refused the caller shows what it showed
before.  It is refused exactly when the targets are, and an accepted call never ends half-way: the
caller shows the remaining object. -/
theorem C46_extract_atomic {samp : List Nat → Nat → List Nat} (hs : SampleSpec samp) {o : Obj V}
    (h : o.WF) (t : Bool) (ax : Ax) (sel : Selector V) :
    (∀ e o', extractA samp t ax sel o = (o', .error e) →
      Unchanged o o' ∧ o.targets samp ax sel = .error e) ∧
    (∀ r o', extractA samp t ax sel o = (o', .ok r) →
      ∃ r2, (o.extract samp ax sel).2 = .ok r2 ∧ Unchanged r2 r ∧
        Unchanged (o.extract samp ax sel).1 o') := by
  obtain ⟨o1, h1, e1⟩ := targetsA_run samp t ax sel o
  have w1 := h1.wf h
  have hu := h1.unchanged
  unfold extractA
  cases hx : o.targets samp ax sel with
  | error e =>
    rw [hx] at e1
    rw [andThen_error e1]
    refine ⟨fun e' o' he => ?_, fun r o' he => by simp at he⟩
    simp only [Prod.mk.injEq, Except.error.injEq] at he
    obtain ⟨rfl, rfl⟩ := he
    exact ⟨hu, rfl⟩
  | ok tgt =>
    rw [hx] at e1
    rw [andThen_ok e1]
    obtain ⟨ht, hb⟩ := targets_valid hs h hx
    have hb1 : ∀ i ∈ tgt, i < (o1.axis ax).len := by rw [hu.axLen]; exact hb
    obtain ⟨r1, _, s1, hrun⟩ := removeA_run w1 ax ht hb1
    obtain ⟨r2, hr2, s2⟩ := selected_spec h ax ht hb
    have q1 := remaining_spec w1 ax ht hb1
    have q2 := remaining_spec h ax ht hb
    rw [hrun]
    have hex : o.extract samp ax sel = (o.remaining ax tgt tgt.length, .ok r2) := by
      unfold extract
      simp only [hx, hr2, bind, Except.bind, pure, Except.pure, s2.len]
    refine ⟨fun e' o' he => by simp at he, fun r o' he => ?_⟩
    simp only [Prod.mk.injEq, Except.ok.injEq] at he
    obtain ⟨rfl, rfl⟩ := he
    rw [hex]
    refine ⟨r2, rfl, selectedSpec_unchanged s2 s1 hu, selectedSpec_unchanged q2 ?_ hu⟩
    rw [hu.axLen] at q1
    exact q1

theorem make_same {r : Obj V} (h : r.WF) :
    ∃ r', make r.data r.pts.len r.fts.len r.pts.getNamesNoGen r.fts.getNamesNoGen = .ok r' ∧
      Unchanged r r' := by
  obtain ⟨a, a1, _, a3, a4, _⟩ := init_same h.pts
  obtain ⟨b, b1, _, b3, b4, _⟩ := init_same h.fts
  refine ⟨⟨r.data, a, b⟩, ?_, ⟨rfl, a3, b3, a4, b4⟩⟩
  simp only [make, a1, b1, bind, Except.bind, pure, Except.pure]

/-- C46. `retain(...)` likewise: the caller's data are overwritten with the rest before the retained
part is put in, but nothing after that can be refused. -/
theorem C46_retain_atomic {samp : List Nat → Nat → List Nat} (hs : SampleSpec samp) {o : Obj V}
    (h : o.WF) (t : Bool) (ax : Ax) (sel : Selector V) :
    (∀ e o', retainA samp t ax sel o = (o', .error e) →
      Unchanged o o' ∧ o.targets samp ax sel = .error e) ∧
    (∀ o', retainA samp t ax sel o = (o', .ok ()) →
      (o.retain samp ax sel).2 = .ok () ∧ Unchanged (o.retain samp ax sel).1 o') := by
  obtain ⟨o1, h1, e1⟩ := targetsA_run samp t ax sel o
  have w1 := h1.wf h
  have hu := h1.unchanged
  unfold retainA
  cases hx : o.targets samp ax sel with
  | error e =>
    rw [hx] at e1
    rw [andThen_error e1]
    refine ⟨fun e' o' he => ?_, fun o' he => by simp at he⟩
    simp only [Prod.mk.injEq, Except.error.injEq] at he
    obtain ⟨rfl, rfl⟩ := he
    exact ⟨hu, rfl⟩
  | ok tgt =>
    rw [hx] at e1
    obtain ⟨ht, hb⟩ := targets_valid hs h hx
    have hb1 : ∀ i ∈ tgt, i < (o1.axis ax).len := by rw [hu.axLen]; exact hb
    obtain ⟨r1, hr1, s1⟩ := selected_spec w1 ax ht hb1
    obtain ⟨r2, hr2, s2⟩ := selected_spec h ax ht hb
    obtain ⟨m1, hm1, u1⟩ := make_same s1.wf
    obtain ⟨m2, hm2, u2⟩ := make_same s2.wf
    rw [andThen_ok e1, andThen_look, andThen_write, andThen_read_ok hr1, andThen_read_ok hm1]
    have hex : o.retain samp ax sel = (m2, .ok ()) := by
      unfold retain
      simp only [hx, hr2, hm2, bind, Except.bind]
    rw [hex]
    refine ⟨fun e' o' he => by simp [Act.write] at he, fun o' he => ⟨rfl, ?_⟩⟩
    simp only [Act.write, Prod.mk.injEq, and_true] at he
    subst he
    have hb12 := selectedSpec_unchanged s2 s1 hu
    refine ⟨?_, ?_, ?_, ?_, ?_⟩
    · rw [u1.data, u2.data, hb12.data]
    · rw [u1.ptsLen, u2.ptsLen, hb12.ptsLen]
    · rw [u1.ftsLen, u2.ftsLen, hb12.ftsLen]
    · rw [u1.ptsNames, u2.ptsNames, hb12.ptsNames]
    · rw [u1.ftsNames, u2.ftsNames, hb12.ftsNames]

/-! ### transpose -/

/-- C46. `transpose()` swaps data, dimensions and names one after the other; none of the steps can be
refused. -/
theorem C46_transpose_total {o : Obj V} (h : o.WF) :
    ∃ r, o.transpose = .ok r ∧ transposeA o = (r, .ok ()) := by
  obtain ⟨a, a1, _, a3, _, _⟩ := setNames_opt_spec o.fts.len o.pts.tbl h.fts rfl
  obtain ⟨b, b1, _, b3, _, _⟩ := setNames_opt_spec o.pts.len o.fts.tbl h.pts rfl
  refine ⟨⟨transposeData o.fts.len o.data, a, b⟩, ?_, ?_⟩
  · unfold transpose
    simp only [a1, b1, bind, Except.bind, pure, Except.pure]
  · unfold transposeA
    rw [andThen_write, andThen_write, andThen_look]
    have s1 : setNamesA .point (asAssign o.fts.getNamesNoGen)
        (⟨transposeData o.fts.len o.data, ⟨o.fts.len, o.pts.tbl⟩, ⟨o.pts.len, o.fts.tbl⟩⟩ : Obj V) =
        (⟨transposeData o.fts.len o.data, a, ⟨o.pts.len, o.fts.tbl⟩⟩, .ok ()) := by
      rw [setNamesA_run]
      simp only [axis, a1, setAxis]
    have s2 : setNamesA .feature (asAssign o.pts.getNamesNoGen)
        (⟨transposeData o.fts.len o.data, a, ⟨o.pts.len, o.fts.tbl⟩⟩ : Obj V) =
        (⟨transposeData o.fts.len o.data, a, b⟩, .ok ()) := by
      rw [setNamesA_run]
      simp only [axis, b1, setAxis]
    have := andThen_ok (f := fun _ => setNamesA (V := V) .feature (asAssign o.pts.getNamesNoGen)) s1
    exact this.trans s2

/-! ### sort -/

private theorem getIndex_str_error {a : AxisSt} {s : String} (hl : a.len ≠ 0) {e : Err}
    (h : a.getIndex (.str s) = .error e) : e = .KeyError := by
  simp only [AxisSt.getIndex, if_neg hl, AxisSt.getIndexByName] at h
  cases ht : a.tbl with
  | none => rw [ht] at h; simp only [Except.map, Except.error.injEq] at h; exact h.symm
  | some t =>
    rw [ht] at h
    dsimp only at h
    cases hg : PyDict.get? t.names s with
    | none => rw [hg] at h; simp only [Except.map, Except.error.injEq] at h; exact h.symm
    | some i => rw [hg] at h; simp [Except.map] at h

/-- The lookup, including the kind of refusal, depends only on length and names. -/
theorem getIndex_eq_of_names {a b : AxisSt} (ha : a.Ok) (hb : b.Ok) (hl : a.len = b.len)
    (hn : a.getNames = b.getNames) (id : Ident) : a.getIndex id = b.getIndex id := by
  cases id with
  | int k => simp only [AxisSt.getIndex, hl]
  | flt q => simp [AxisSt.getIndex, hl]
  | str s =>
    by_cases h0 : a.len = 0
    · simp [AxisSt.getIndex, h0, ← hl]
    · have h0' : b.len ≠ 0 := by rw [← hl]; exact h0
      cases h1 : a.getIndex (.str s) with
      | ok i =>
        have hb1 := getIndex_bound ha h1
        have := (getIndex_congr ha hb hl hn (.str s) i.toNat).1 (by rw [h1]; congr 1; omega)
        rw [this]; congr 1; omega
      | error e =>
        cases h2 : b.getIndex (.str s) with
        | error e' => rw [getIndex_str_error h0 h1, getIndex_str_error h0' h2]
        | ok i =>
          have hb1 := getIndex_bound hb h2
          have := (getIndex_congr ha hb hl hn (.str s) i.toNat).2 (by rw [h2]; congr 1; omega)
          rw [h1] at this; cases this

theorem Unchanged.getIndex {o o' : Obj V} (hu : Unchanged o o') (h : o.WF) (h' : o'.WF) (ax : Ax)
    (id : Ident) : (o'.axis ax).getIndex id = (o.axis ax).getIndex id :=
  getIndex_eq_of_names (h'.axisOk ax) (h.axisOk ax) (hu.axLen ax) (hu.axNames ax) id

theorem Unchanged.vector {o o' : Obj V} (hu : Unchanged o o') (ax : Ax) (i : Nat) :
    o'.vector ax i = o.vector ax i := by
  cases ax <;> simp only [Obj.vector, hu.data]

theorem Unchanged.resolve {o o' : Obj V} (hu : Unchanged o o') (h : o.WF) (h' : o'.WF) (ax : Ax)
    (ids : List Ident) : resolveIdents (o'.axis ax) ids = resolveIdents (o.axis ax) ids := by
  induction ids with
  | nil => rfl
  | cons id ids ih => simp only [resolveIdents, hu.getIndex h h', ih]

/-- `permute` cannot tell apart states that show the same. -/
theorem permute_congr {o o' : Obj V} (hu : Unchanged o o') (h : o.WF) (h' : o'.WF) (ax : Ax)
    (order : List Ident) :
    (∀ e, o.permute ax order = .error e → o'.permute ax order = .error e) ∧
    (∀ r, o.permute ax order = .ok r →
      r.WF ∧ ∃ r', o'.permute ax order = .ok r' ∧ r'.WF ∧ Unchanged r r') := by
  simp only [permute, hu.resolve h h', hu.axLen]
  cases hl : resolveIdents (o.axis ax) order with
  | error e =>
    simp only [bind, Except.bind]
    exact ⟨fun e' he => he, fun r hr => by simp at hr⟩
  | ok l =>
    simp only [bind, Except.bind]
    by_cases h1 : l.length ≠ (o.axis ax).len
    · rw [if_pos h1, if_pos h1]
      exact ⟨fun e' he => he, fun r hr => by simp at hr⟩
    · rw [if_neg h1, if_neg h1]
      by_cases h2 : ¬ l.Nodup
      · rw [if_pos h2, if_pos h2]
        exact ⟨fun e' he => he, fun r hr => by simp at hr⟩
      · rw [if_neg h2, if_neg h2]
        have hp := perm_range_of_nodup (by simpa using h2) (resolveIdents_bound (h.axisOk ax) hl)
          (by simpa using h1)
        obtain ⟨r, hr, hs⟩ := applyOrder_spec h ax hp
        obtain ⟨r', hr', hs'⟩ := applyOrder_spec h' ax (l := l) (by rw [hu.axLen]; exact hp)
        rw [hr, hr']
        refine ⟨fun e he => by simp at he, fun q hq => ?_⟩
        simp only [Except.ok.injEq] at hq
        subst hq
        exact ⟨hs.wf, r', rfl, hs'.wf, selectedSpec_unchanged hs hs' hu⟩

theorem sortByOneA_run (le : V → V → Bool) (reverse : Bool) {o o' : Obj V} (hu : Unchanged o o')
    (h : o.WF) (h' : o'.WF) (ax : Ax) (k : Ident) :
    (∀ e, sortByOne le reverse o ax k = .error e →
      ∃ q, sortByOneA le reverse ax k o' = (q, .error e) ∧ q.WF ∧ Unchanged o q) ∧
    (∀ r, sortByOne le reverse o ax k = .ok r → r.WF ∧
      ∃ q, sortByOneA le reverse ax k o' = (q, .ok ()) ∧ q.WF ∧ Unchanged r q) := by
  obtain ⟨o1, h1, e1⟩ := getIndexA_run ax.off k o'
  rw [hu.getIndex h h'] at e1
  have w1 := h1.wf h'
  have hu1 : Unchanged o o1 := hu.trans h1.unchanged
  unfold sortByOneA sortByOne
  cases hi : (o.axis ax.off).getIndex k with
  | error e =>
    rw [hi] at e1
    rw [andThen_error e1]
    simp only [bind, Except.bind]
    refine ⟨fun e' he => ⟨o1, ?_, w1, hu1⟩, fun r hr => by simp at hr⟩
    simp only [Except.error.injEq] at he
    rw [he]
  | ok i =>
    rw [hi] at e1
    rw [andThen_ok e1, andThen_look]
    simp only [bind, Except.bind]
    rw [hu1.vector]
    generalize (sortOrder le reverse (o.vector ax.off i.toNat)).map (fun (k : Nat) => Ident.int k) = order
    obtain ⟨c1, c2⟩ := permute_congr hu1 h w1 ax order
    obtain ⟨p1, p2⟩ := permuteA_run w1 ax order
    constructor
    · intro e he
      obtain ⟨q, hq, hm⟩ := p1 e (c1 e he)
      exact ⟨q, hq, hm.wf w1, hu1.trans hm.unchanged⟩
    · intro r hr
      obtain ⟨wr, r', hr', _, ur⟩ := c2 r hr
      obtain ⟨q, hq, wq, uq⟩ := p2 r' hr'
      exact ⟨wr, q, hq, wq, ur.trans uq⟩

theorem sortKeysA_run (le : V → V → Bool) (reverse : Bool) (ax : Ax) (ids : List Ident) {o o' : Obj V}
    (hu : Unchanged o o') (h : o.WF) (h' : o'.WF) :
    ∃ q, sortKeysA le reverse ax ids o' = (q, (sortKeys le reverse ax o ids).2) ∧ q.WF ∧
      Unchanged (sortKeys le reverse ax o ids).1 q := by
  induction ids generalizing o o' with
  | nil => exact ⟨o', rfl, h', hu⟩
  | cons k ks ih =>
    obtain ⟨s1, s2⟩ := sortByOneA_run le reverse hu h h' ax k
    unfold sortKeysA sortKeys
    cases hk : sortByOne le reverse o ax k with
    | error e =>
      obtain ⟨q, hq, wq, uq⟩ := s1 e hk
      exact ⟨q, andThen_error hq, wq, uq⟩
    | ok r =>
      obtain ⟨wr, q, hq, wq, uq⟩ := s2 r hk
      rw [andThen_ok hq]
      exact ih uq wr wq

private theorem sortKeys_append (le : V → V → Bool) (reverse : Bool) (ax : Ax) (xs ys : List Ident)
    (o r : Obj V) (h : sortKeys le reverse ax o xs = (r, .ok ())) :
    sortKeys le reverse ax o (xs ++ ys) = sortKeys le reverse ax r ys := by
  induction xs generalizing o with
  | nil => simp only [sortKeys, Prod.mk.injEq, and_true] at h; subst h; rfl
  | cons x xs ih =>
    simp only [sortKeys, List.cons_append] at h ⊢
    cases hk : sortByOne le reverse o ax x with
    | error e => rw [hk] at h; simp at h
    | ok q => rw [hk] at h; exact ih q h

/-- C46. What a refused `sort(by=[...])` leaves: if `bad` is the last key that does not resolve, the
object shows the result of sorting by the keys after it - so it is unchanged when `bad` is the last
key, in particular when there is only one. -/
theorem C46_sort_refused_state_partial {le : V → V → Bool} (hle : TotalOrd le) (reverse : Bool) {o : Obj V}
    (h : o.WF) (ax : Ax) (pre post : List Ident) (bad : Ident) (e : Err)
    (hbad : (o.axis ax.off).getIndex bad = .error e) (js : List Nat)
    (hpost : post.map (fun id => (o.axis ax.off).getIndex id) =
      js.map (fun (i : Nat) => (.ok (i : Int) : Res Int))) :
    ∃ q r, sortA le reverse ax (pre ++ bad :: post) o = (q, .error e) ∧
      o.sortBy le reverse ax post = (r, .ok ()) ∧ Unchanged r q ∧ (post = [] → Unchanged o q) := by
  obtain ⟨r, l, hr, R, _⟩ := C10_sort_lexicographic_stable hle reverse h ax post js hpost
  have hid : SelectedSpec o o ax (List.range (o.axis ax).len) := by
    refine ⟨h, (selData_range h ax).symm, by simp, ?_, rfl, rfl, rfl, rfl⟩
    rw [pick_range_of_eq _ (h.axisOk ax).length_getNames.symm]
  obtain ⟨r', l', hr', _, hs', _⟩ := sortKeys_spec hle (reverse := reverse) h (ax := ax) post.reverse
    js.reverse (by rw [List.map_reverse, List.map_reverse, hpost]) (List.Perm.refl _) hid (keys := [])
    (by simpa [LexBefore] using List.pairwise_lt_range)
  have hrr : r' = r := by
    unfold sortBy at hr
    rw [hr'] at hr
    simpa using hr
  subst hrr
  have hs : sortKeys le reverse ax o (pre ++ bad :: post).reverse = (r', .error e) := by
    have e1 : (pre ++ bad :: post).reverse = post.reverse ++ (bad :: pre.reverse) := by simp
    rw [e1, sortKeys_append _ _ _ _ _ _ _ hr']
    have hb : (r'.axis ax.off).getIndex bad = .error e := by
      rw [getIndex_eq_of_names (hs'.wf.axisOk _) (h.axisOk _) hs'.offLen hs'.offNames, hbad]
    simp only [sortKeys, sortByOne, hb, bind, Except.bind]
  obtain ⟨q, hq, wq, uq⟩ := sortKeysA_run le reverse ax (pre ++ bad :: post).reverse (Unchanged.refl o) h h
  rw [hs] at hq uq
  refine ⟨q, r', hq, hr, uq, fun hp => ?_⟩
  subst hp
  simp only [sortBy, List.reverse_nil, sortKeys, Prod.mk.injEq, and_true] at hr
  rw [hr]; exact uq

/-! ### setNames with old identifiers -/

private theorem setTbl_eq {o : Obj V} {ax : Ax} {n : Nat} {t : NameTable} (h : o.axis ax = ⟨n, some t⟩)
    (f : NameTable → NameTable) :
    o.setTbl ax ((o.axis ax).tbl.map f) = o.setAxis ax ⟨n, some (f t)⟩ := by
  simp only [setTbl, h, Option.map_some]

/-- The deletions never meet a missing key when every old name is present. -/
theorem delLoop_run (ax : Ax) (od : PyDict (Option String) Nat) (hn : (PyDict.keys od).Nodup) (n : Nat)
    (names : PyDict String Nat) (inv : List (Option String)) (o : Obj V)
    (hp : ∀ s : String, some s ∈ PyDict.keys od → s ∈ PyDict.keys names) :
    forEach (delOldA ax) od (o.setAxis ax ⟨n, some ⟨names, inv⟩⟩) =
      (o.setAxis ax ⟨n, some ⟨od.foldl delOld names, inv⟩⟩, .ok ()) := by
  induction od generalizing names with
  | nil => rfl
  | cons p od ih =>
    obtain ⟨k, v⟩ := p
    simp only [PyDict.keys, List.map_cons, List.nodup_cons] at hn
    unfold forEach
    cases k with
    | none =>
      have e1 : delOldA ax (none, v) (o.setAxis ax ⟨n, some ⟨names, inv⟩⟩) =
          (o.setAxis ax ⟨n, some ⟨names, inv⟩⟩, .ok ()) := rfl
      rw [andThen_ok e1, ih hn.2 names (fun s hs => hp s (by
        simp only [PyDict.keys, List.map_cons, List.mem_cons]; exact Or.inr hs))]
      rfl
    | some s =>
      have hs : s ∈ PyDict.keys names := hp s (by simp [PyDict.keys])
      have hax := axis_setAxis o ax ⟨n, some ⟨names, inv⟩⟩
      have e1 : delOldA ax (some s, v) (o.setAxis ax ⟨n, some ⟨names, inv⟩⟩) =
          (o.setAxis ax ⟨n, some ⟨PyDict.del names s, inv⟩⟩, .ok ()) := by
        unfold delOldA
        dsimp only
        rw [raiseIf_no (by rw [hax]; simp [PyDict.has_iff.2 hs])]
        simp only [Act.write]
        rw [setTbl_eq hax, setAxis_setAxis]
      rw [andThen_ok e1, ih hn.2 (PyDict.del names s)]
      · rfl
      · intro s' hs'
        have hne : s ≠ s' := by
          rintro rfl
          exact hn.1 hs'
        have := hp s' (by simp only [PyDict.keys, List.map_cons, List.mem_cons]; exact Or.inr hs')
        rw [PyDict.mem_keys] at this ⊢
        rw [PyDict.get?_del, if_neg hne]
        exact this

theorem writeLoop_run (ax : Ax) (nd : PyDict (Option String) Nat) (n : Nat) (t : NameTable) (o : Obj V) :
    forEach (writeOneA ax) nd (o.setAxis ax ⟨n, some t⟩) =
      (o.setAxis ax ⟨n, some (nd.foldl writeOne t)⟩, .ok ()) := by
  induction nd generalizing t with
  | nil => rfl
  | cons p nd ih =>
    unfold forEach
    have e1 : writeOneA ax p (o.setAxis ax ⟨n, some t⟩) = (o.setAxis ax ⟨n, some (writeOne t p)⟩, .ok ()) := by
      simp only [writeOneA, Act.write]
      rw [setTbl_eq (axis_setAxis o ax ⟨n, some t⟩), setAxis_setAxis]
    rw [andThen_ok e1, ih]
    rfl

theorem renameA_run {o : Obj V} {ax : Ax} (h : (o.axis ax).Ok) (new : List (Option String))
    (old : List Ident) :
    renameA ax new old o =
      (o.setAxis ax ((o.axis ax).setNamesPartial new old).1, ((o.axis ax).setNamesPartial new old).2) := by
  unfold renameA AxisSt.setNamesPartial
  by_cases h0 : (o.axis ax).len = 0
  · rw [raiseIf_yes (by simpa using h0), if_pos h0, setAxis_self]
  rw [raiseIf_no (by simpa using h0), if_neg h0]
  by_cases h1 : new.length ≤ (o.axis ax).len ∧ new.length = old.length
  swap
  · rw [raiseIf_yes (by rw [decide_eq_false h1]; rfl), if_neg h1, setAxis_self]
  rw [raiseIf_no (by simpa using h1), if_pos h1, andThen_write]
  have hk := h.touch
  obtain ⟨t, ht⟩ : ∃ t, (o.axis ax).touch.tbl = some t := by
    cases hx : (o.axis ax).tbl <;> simp [AxisSt.touch, hx]
  have hax : (o.touchAxis ax).axis ax = (o.axis ax).touch := axis_setAxis ..
  dsimp only
  rw [ht]
  dsimp only
  cases hr : resolveOld (o.axis ax).touch t old with
  | error e =>
    rw [andThen_read_error (by rw [hax, ht]; exact hr)]
    rfl
  | ok olds =>
    rw [andThen_read_ok (by rw [hax, ht]; exact hr)]
    dsimp only
    cases hc : checkNew t (PyDict.ofPairs (new.zip (olds.map Prod.snd))) with
    | error e =>
      rw [andThen_read_error (by rw [hax, ht]; exact hc)]
      rfl
    | ok u =>
      rw [andThen_read_ok (by rw [hax, ht]; exact hc)]
      obtain ⟨hl, hold, _⟩ := resolveOld_spec hk ht hr
      have htouch : o.touchAxis ax = o.setAxis ax ⟨(o.axis ax).touch.len, some ⟨t.names, t.inv⟩⟩ := by
        unfold touchAxis
        congr 1
        have : (o.axis ax).touch = ⟨(o.axis ax).touch.len, (o.axis ax).touch.tbl⟩ := rfl
        rw [this, ht]
      have hd := delLoop_run ax (PyDict.ofPairs olds) (PyDict.nodup_ofPairs olds) (o.axis ax).touch.len
        t.names t.inv o (by
          intro s hs
          rw [keys_ofPairs_mem] at hs
          obtain ⟨p, hp, he⟩ := List.mem_map.1 hs
          have h2 := (hold p hp).2
          rw [he] at h2
          have hg : (o.axis ax).touch.getNames[p.2]? = some (some s) := by
            rw [AxisSt.getNames_of_some ht]; exact h2
          have := getIndex_str_of_get? ht ((hk.getName_iff s p.2).1 hg)
          rw [PyDict.mem_keys, this]; rfl)
      rw [htouch, andThen_ok hd, writeLoop_run]
      rfl

/-- C46. `setNames(assignments, oldIdentifiers)`: a refused renaming of some points (features) leaves
the object showing what it showed before, and once the first name is deleted nothing can be refused
any more. -/
theorem C46_rename_atomic {o : Obj V} (h : o.WF) (ax : Ax) (new : List (Option String)) (old : List Ident) :
    (∀ e o', renameA ax new old o = (o', .error e) → Unchanged o o') ∧
    (∀ o', renameA ax new old o = (o', .ok ()) →
      ((o.axis ax).setNamesPartial new old).2 = .ok () ∧
      o' = o.setAxis ax ((o.axis ax).setNamesPartial new old).1) := by
  rw [renameA_run (h.axisOk ax)]
  refine ⟨fun e o' he => ?_, fun o' he => ?_⟩
  · simp only [Prod.mk.injEq] at he
    obtain ⟨rfl, he⟩ := he
    have hm : ((o.axis ax).setNamesPartial new old).1 = o.axis ax ∨
        ((o.axis ax).setNamesPartial new old).1 = (o.axis ax).touch := by
      unfold AxisSt.setNamesPartial at he ⊢
      split
      · exact Or.inl rfl
      · next h0 =>
        rw [if_neg h0] at he
        split
        · next h1 =>
          rw [if_pos h1] at he
          dsimp only at he ⊢
          cases ht : (o.axis ax).touch.tbl with
          | none => exact Or.inr rfl
          | some t =>
            rw [ht] at he
            dsimp only at he ⊢
            cases hr : resolveOld (o.axis ax).touch t old with
            | error e => exact Or.inr rfl
            | ok olds =>
              rw [hr] at he
              dsimp only at he ⊢
              cases hc : checkNew t (PyDict.ofPairs (new.zip (olds.map Prod.snd))) with
              | error e => exact Or.inr rfl
              | ok u => rw [hc] at he; simp at he
        · exact Or.inl rfl
    rcases hm with hm | hm
    · rw [hm, setAxis_self]; exact Unchanged.refl o
    · rw [hm]; exact MaybeTouched.unchanged (ax := ax) (Or.inr rfl)
  · simp only [Prod.mk.injEq] at he
    exact ⟨he.2, he.1.symm⟩

/-! ### Examples -/

private def exAt : Obj Int :=
  ⟨[[1, 2], [3, 4]], ⟨2, some ⟨[("p", 0), ("q", 1)], [some "p", some "q"]⟩⟩, ⟨2, none⟩⟩

private theorem exAt_wf : exAt.WF where
  rows := rfl
  cols := by decide
  pts := by
    intro t ht; simp only [exAt, Option.some.injEq] at ht; subst ht
    exact namedPairs_ok (l := [some "p", some "q"]) (by decide)
  fts := none_ok 2

-- a refused permute, insert and rename; an accepted one
example : (permuteA .point [.str "q", .str "nope"] exAt).2 = .error .KeyError := by decide
example : (permuteA .point [.str "q", .str "p"] exAt) =
    (⟨[[3, 4], [1, 2]], ⟨2, some ⟨[("q", 0), ("p", 1)], [some "q", some "p"]⟩⟩, ⟨2, none⟩⟩, .ok ()) := by rfl
example : (insertA .point none exAt exAt) = (exAt, .error .InvalidArgumentValue) := by rfl
example : (renameA .point [some "p"] [.str "q"] exAt) = (exAt, .error .InvalidArgumentValue) := by rfl
example : (extractA (fun l k => l.take k) false .point { target := some (.list [.str "p"]) } exAt).1.data =
    [[3, 4]] := by rfl

end Nimble
