import Verif.Model.ValidatorData
import Verif.Props.Folds

/-!
# C78: holdout and group validation never use a point on both sides
-/

namespace Nimble

open Obj

variable {V : Type}

/-- `numpyRandom.choice(range(n), k, replace=False)`. -/
def ChoiceSpec (choice : Nat → Nat → List Nat) : Prop :=
  ∀ n k, k ≤ n → (choice n k).Nodup ∧ (∀ i ∈ choice n k, i < n) ∧ (choice n k).length = k

/-- The data of the points `idx`, separated into X and Y: Y is taken from the object given for it, or it is the
feature of X the identifier denotes, which X then does not have. -/
def Part (X : Obj V) (Y : YArg V) (idx : List Nat) (r : Obj V × Option (Obj V)) : Prop :=
  match Y with
  | .none => r.2 = none ∧ SelectedSpec X r.1 .point idx
  | .obj Yo => ∃ y, r.2 = some y ∧ SelectedSpec X r.1 .point idx ∧ SelectedSpec Yo y .point idx
  | .ident id => ∃ (c : Nat) (x0 y : Obj V), X.fts.getIndex id = .ok (c : Int) ∧ r.2 = some y ∧
      SelectedSpec X x0 .point idx ∧ SelectedSpec x0 r.1 .feature (restIdx X.fts.len [c]) ∧
      SelectedSpec x0 y .feature [c]

theorem takeOut_spec {samp : List Nat → Nat → List Nat} {o : Obj V} (h : o.WF) {ax : Ax} {ids : List Ident}
    {p : Obj V × Obj V} (hp : takeOut samp o ax ids = .ok p) :
    ∃ tgt : List Nat, ids.map (fun id => (o.axis ax).getIndex id) = tgt.map (fun (i : Nat) => (.ok (i : Int) : Res Int)) ∧
      tgt.Nodup ∧ (∀ i ∈ tgt, i < (o.axis ax).len) ∧
      SelectedSpec o p.1 ax (restIdx (o.axis ax).len tgt) ∧ SelectedSpec o p.2 ax tgt := by
  unfold takeOut extract at hp
  cases ht : o.targets samp ax { target := some (.list ids) } with
  | error e =>
    rw [ht] at hp
    cases hp
  | ok tgt =>
    obtain ⟨e1, e2⟩ := (C08_list_selector h ax ids tgt).1 ht
    have hb : ∀ i ∈ tgt, i < (o.axis ax).len := by
      intro i hi
      have : (.ok (i : Int) : Res Int) ∈ ids.map (fun id => (o.axis ax).getIndex id) := by
        rw [e1]; exact List.mem_map.2 ⟨i, hi, rfl⟩
      obtain ⟨id, -, hid⟩ := List.mem_map.1 this
      have := (getIndex_bound (h.axisOk ax) hid).2
      omega
    obtain ⟨r, hr, hs⟩ := selected_spec h ax e2 hb
    rw [ht] at hp
    simp only [bind, Except.bind, hr, pure, Except.pure] at hp
    injection hp with hp
    subst hp
    refine ⟨tgt, e1, e2, hb, ?_, hs⟩
    show SelectedSpec o (o.remaining ax tgt (r.axis ax).len) ax _
    rw [hs.len]
    exact remaining_spec h ax e2 hb

theorem takeOut_ok {samp : List Nat → Nat → List Nat} {o : Obj V} (h : o.WF) {ax : Ax} {ids : List Ident}
    {tgt : List Nat}
    (e1 : ids.map (fun id => (o.axis ax).getIndex id) = tgt.map (fun (i : Nat) => (.ok (i : Int) : Res Int)))
    (e2 : tgt.Nodup) (hb : ∀ i ∈ tgt, i < (o.axis ax).len) : ∃ p, takeOut samp o ax ids = .ok p := by
  unfold takeOut extract
  obtain ⟨r, hr, hs⟩ := selected_spec h ax e2 hb
  rw [(C08_list_selector h ax ids tgt).2 ⟨e1, e2⟩]
  simp only [bind, Except.bind, hr, pure, Except.pure]
  exact ⟨_, rfl⟩

theorem intIds_index {a : AxisSt} {sel : List Nat} (hb : ∀ i ∈ sel, i < a.len) :
    (intIds sel).map (fun id => a.getIndex id) = sel.map (fun (i : Nat) => (.ok (i : Int) : Res Int)) := by
  unfold intIds
  rw [List.map_map]
  refine List.map_congr_left ?_
  intro i hi
  have := hb i hi
  show a.getIndex (.int i) = .ok (i : Int)
  rw [C04_getIndex_int]
  refine ⟨by omega, by omega, ?_⟩
  rw [if_neg (by omega)]

/-- Splitting by indices. -/
theorem takeOut_points {samp : List Nat → Nat → List Nat} {o : Obj V} (h : o.WF) {sel : List Nat}
    (hn : sel.Nodup) (hb : ∀ i ∈ sel, i < o.pts.len) :
    ∃ p, takeOut samp o .point (intIds sel) = .ok p ∧
      SelectedSpec o p.1 .point (restIdx o.pts.len sel) ∧ SelectedSpec o p.2 .point sel := by
  obtain ⟨p, hp⟩ := takeOut_ok (samp := samp) h (ax := .point) (intIds_index hb) hn hb
  obtain ⟨tgt, e1, -, -, e4, e5⟩ := takeOut_spec h hp
  have : tgt = sel := by
    have h2 := e1.symm.trans (intIds_index (a := o.axis .point) hb)
    have inj : Function.Injective (fun (i : Nat) => (.ok (i : Int) : Res Int)) := by
      intro a b hab
      injection hab with hab
      omega
    exact inj.list_map h2
  subst this
  exact ⟨p, hp, e4, e5⟩

theorem mapIndex_singleton {f : Ident → Res Int} {id : Ident} {tgt : List Nat}
    (h : [id].map f = tgt.map (fun (i : Nat) => (.ok (i : Int) : Res Int))) :
    ∃ c : Nat, tgt = [c] ∧ f id = .ok (c : Int) := by
  cases tgt with
  | nil => cases h
  | cons c tgt =>
    cases tgt with
    | nil =>
      simp only [List.map_cons, List.map_nil, List.cons.injEq, and_true] at h
      exact ⟨c, rfl, h⟩
    | cons d tgt => simp at h

/-- Separating Y from the selected points. -/
theorem separate_part {samp : List Nat → Nat → List Nat} {X x0 : Obj V} (hX : X.WF) {idx : List Nat}
    (hs : SelectedSpec X x0 .point idx) {id : Ident} {r : Obj V × Option (Obj V)}
    (h : separate samp x0 (.ident id) = .ok r) : Part X (.ident id) idx r := by
  unfold separate at h
  dsimp only at h
  cases hp : takeOut samp x0 .feature [id] with
  | error e => rw [hp] at h; cases h
  | ok p =>
    rw [hp] at h
    injection h with h
    subst h
    obtain ⟨tgt, e1, -, -, e4, e5⟩ := takeOut_spec hs.wf hp
    obtain ⟨c, rfl, hc⟩ := mapIndex_singleton e1
    have hl : (x0.axis .feature).len = X.fts.len := hs.offLen
    have hn : (x0.axis .feature).getNames = X.fts.getNames := hs.offNames
    refine ⟨c, x0, p.2, ?_, rfl, hs, ?_, e5⟩
    · exact (getIndex_congr (hs.wf.axisOk .feature) hX.fts hl hn id c).1 hc
    · rw [← hl]; exact e4

theorem validatorData_ok {samp : List Nat → Nat → List Nat} {X : Obj V} {Y : YArg V} {r : Obj V × Option (Obj V)}
    (h : validatorData samp X Y = .ok r) : separate samp X Y = .ok r ∧ sameLength r.1 r.2 = true := by
  unfold validatorData at h
  simp only [bind, Except.bind] at h
  cases hp : separate samp X Y with
  | error e => rw [hp] at h; cases h
  | ok p =>
    rw [hp] at h
    dsimp only at h
    by_cases hl : sameLength p.1 p.2 = true
    · rw [if_pos hl] at h
      injection h with h
      subst h
      exact ⟨rfl, hl⟩
    · rw [if_neg hl] at h; cases h

theorem holdoutData_ok {samp : List Nat → Nat → List Nat} {X vX : Obj V} {Y vY : YArg V}
    {t v : Obj V × Option (Obj V)} (h : holdoutData samp X Y vX vY = .ok (t, v)) :
    ∃ vy, validateYArg Y vY = .ok vy ∧ validatorData samp vX vy = .ok v ∧ validatorData samp X Y = .ok t := by
  unfold holdoutData at h
  simp only [bind, Except.bind] at h
  cases g0 : validateYArg Y vY with
  | error e => rw [g0] at h; cases h
  | ok vy =>
    rw [g0] at h
    dsimp only at h
    cases g1 : validatorData samp vX vy with
    | error e => rw [g1] at h; cases h
    | ok v' =>
      rw [g1] at h
      dsimp only at h
      cases g2 : validatorData samp X Y with
      | error e => rw [g2] at h; cases h
      | ok t' =>
        rw [g2] at h
        injection h with h
        injection h with h1 h2
        subst h1 h2
        exact ⟨vy, rfl, g1, rfl⟩

theorem holdoutNumber_le {p : Rat} (h : p < 1) (n : Nat) : holdoutNumber p n ≤ n := by
  unfold holdoutNumber
  have h1 : (p * (n : Rat)).floor ≤ (n : Int) := by
    have h2 : p * (n : Rat) ≤ (n : Rat) := by
      have hn : (0 : Rat) ≤ (n : Rat) := by exact_mod_cast Nat.zero_le n
      have := Rat.mul_le_mul_of_nonneg_right (Rat.le_of_lt h) hn
      rwa [Rat.one_mul] at this
    have h3 : ((p * (n : Rat)).floor : Rat) ≤ p * (n : Rat) := Rat.floor_le _
    have h4 := Rat.le_trans h3 h2
    exact_mod_cast h4
  omega

/-- C78. Holding out a proportion `p` of the points: some `int(p * n)` points become the validation data and all
others the training data, each point with its own label, whether the labels are an object or a feature of X. -/
theorem C78_proportion {samp : List Nat → Nat → List Nat} {choice : Nat → Nat → List Nat} (hc : ChoiceSpec choice)
    {p : Rat} {X : Obj V} {Y : YArg V} (hX : X.WF) (hY : ∀ o, Y = .obj o → o.WF)
    {t v : Obj V × Option (Obj V)} (h : proportionData samp choice p X Y = .ok (t, v)) :
    0 < p ∧ p < 1 ∧ ∃ tr te : List Nat, (tr ++ te).Perm (List.range X.pts.len) ∧
      te.length = holdoutNumber p X.pts.len ∧ Part X Y tr t ∧ Part X Y te v := by
  unfold proportionData at h
  by_cases h0 : p ≤ 0 ∨ 1 ≤ p
  · rw [if_pos h0] at h; cases h
  rw [if_neg h0] at h
  have hp : 0 < p ∧ p < 1 := ⟨Rat.not_le.1 (fun h => h0 (.inl h)), Rat.not_le.1 (fun h => h0 (.inr h))⟩
  refine ⟨hp.1, hp.2, ?_⟩
  obtain ⟨c1, c2, c3⟩ := hc X.pts.len (holdoutNumber p X.pts.len) (holdoutNumber_le hp.2 _)
  generalize choice X.pts.len (holdoutNumber p X.pts.len) = sel at h c1 c2 c3
  refine ⟨restIdx X.pts.len sel, sel, ?_, c3, ?_⟩
  · exact List.perm_append_comm.trans (perm_targets_rest c1 c2)
  obtain ⟨x, hx, x1, x2⟩ := takeOut_points (samp := samp) hX c1 c2
  simp only [bind, Except.bind, hx] at h
  cases Y with
  | none => cases h
  | ident id =>
    replace h : holdoutData samp x.1 (.ident id) x.2 (.ident id) = .ok (t, v) := h
    obtain ⟨vy, g0, g1, g2⟩ := holdoutData_ok h
    injection g0 with g0
    subst g0
    exact ⟨separate_part hX x1 (validatorData_ok g2).1, separate_part hX x2 (validatorData_ok g1).1⟩
  | obj Yo =>
    have hYo := hY Yo rfl
    unfold splitY at h
    dsimp only at h
    simp only [bind, Except.bind] at h
    cases hy : takeOut samp Yo .point (intIds sel) with
    | error e => rw [hy] at h; cases h
    | ok y =>
      rw [hy] at h
      simp only [pure, Except.pure] at h
      replace h : holdoutData samp x.1 (.obj y.1) x.2 (.obj y.2) = .ok (t, v) := h
      obtain ⟨vy, g0, g1, g2⟩ := holdoutData_ok h
      injection g0 with g0
      subst g0
      obtain ⟨g1a, g1b⟩ := validatorData_ok g1
      obtain ⟨g2a, g2b⟩ := validatorData_ok g2
      injection g1a with g1a
      injection g2a with g2a
      subst g1a g2a
      obtain ⟨tgt, e1, e2, e3, e4, e5⟩ := takeOut_spec hYo hy
      -- the two objects have the same number of points
      have hl : tgt.length = sel.length := by
        have := congrArg List.length e1
        simpa [intIds] using this.symm
      have hlen : Yo.pts.len = X.pts.len := by
        have a1 : x.1.pts.len = y.1.pts.len := by
          unfold sameLength at g2b
          simpa using g2b
        have b1 : x.1.pts.len = X.pts.len - sel.length := by
          have := x1.len
          rw [show (restIdx X.pts.len sel).length = X.pts.len - sel.length from length_rest c1 c2] at this
          exact this
        have b2 : y.1.pts.len = Yo.pts.len - tgt.length := by
          have := e4.len
          rw [show (restIdx (Yo.axis .point).len tgt).length = Yo.pts.len - tgt.length from length_rest e2 e3]
            at this
          exact this
        have d1 : sel.length ≤ X.pts.len := by rw [c3]; exact holdoutNumber_le hp.2 _
        have d2 : tgt.length ≤ Yo.pts.len := by
          have := (e2.subperm (l₂ := List.range Yo.pts.len) (fun i hi => List.mem_range.2 (e3 i hi))).length_le
          simpa using this
        omega
      have hts : tgt = sel := by
        have h2 := e1.symm.trans (intIds_index (a := Yo.axis .point) (by
          intro i hi
          show i < Yo.pts.len
          rw [hlen]; exact c2 i hi))
        have inj : Function.Injective (fun (i : Nat) => (.ok (i : Int) : Res Int)) := by
          intro a b hab
          injection hab with hab
          omega
        exact inj.list_map h2
      subst hts
      refine ⟨⟨y.1, rfl, x1, ?_⟩, ⟨y.2, rfl, x2, e5⟩⟩
      have : restIdx X.pts.len tgt = restIdx (Yo.axis .point).len tgt := by
        show _ = restIdx Yo.pts.len tgt
        rw [hlen]
      rw [this]
      exact e4

/-- C78. Such a split is made for every proportion between 0 and 1 and every label object with as many points as X. -/
theorem C78_proportion_accepts {samp : List Nat → Nat → List Nat} {choice : Nat → Nat → List Nat}
    (hc : ChoiceSpec choice) {p : Rat} (h0 : 0 < p) (h1 : p < 1) {X Y : Obj V} (hX : X.WF) (hY : Y.WF)
    (hl : Y.pts.len = X.pts.len) : ∃ r, proportionData samp choice p X (.obj Y) = .ok r := by
  unfold proportionData
  rw [if_neg (by rintro (h | h); exacts [absurd h0 (Rat.not_lt.2 h), absurd h1 (Rat.not_lt.2 h)])]
  obtain ⟨c1, c2, c3⟩ := hc X.pts.len (holdoutNumber p X.pts.len) (holdoutNumber_le h1 _)
  generalize choice X.pts.len (holdoutNumber p X.pts.len) = sel at c1 c2 c3
  obtain ⟨x, hx, x1, x2⟩ := takeOut_points (samp := samp) hX c1 c2
  obtain ⟨y, hy, y1, y2⟩ := takeOut_points (samp := samp) hY c1 (by rw [hl]; exact c2)
  have e1 : x.1.pts.len = y.1.pts.len := by
    have a := x1.len
    have b := y1.len
    rw [hl] at b
    exact a.trans b.symm
  have e2 : x.2.pts.len = y.2.pts.len := x2.len.trans y2.len.symm
  have v1 : validatorData samp x.1 (.obj y.1) = .ok (x.1, some y.1) := by
    unfold validatorData separate
    simp [bind, Except.bind, sameLength, e1]
  have v2 : validatorData samp x.2 (.obj y.2) = .ok (x.2, some y.2) := by
    unfold validatorData separate
    simp [bind, Except.bind, sameLength, e2]
  unfold splitY holdoutData
  simp only [bind, Except.bind, hx, hy, pure, Except.pure]
  have v0 : validateYArg (.obj y.1) (.obj y.2) = .ok (.obj y.2) := rfl
  simp only [v0, v1, v2]
  exact ⟨_, rfl⟩

/-- C78 violated: with the default proportion 0.2 and at most four points the validation data is empty, and the
object is made without complaint. -/
theorem C78_empty_violated {samp : List Nat → Nat → List Nat} {choice : Nat → Nat → List Nat}
    (hc : ChoiceSpec choice) {X Y : Obj V} (hX : X.WF) (hY : Y.WF) (hl : Y.pts.len = X.pts.len)
    (h4 : X.pts.len ≤ 4) :
    ∃ t v, proportionData samp choice (1/5) X (.obj Y) = .ok (t, v) ∧ v.1.pts.len = 0 := by
  have h0 : (0 : Rat) < 1/5 := by decide +kernel
  have h1 : (1/5 : Rat) < 1 := by decide +kernel
  obtain ⟨⟨t, v⟩, hr⟩ := C78_proportion_accepts (samp := samp) hc h0 h1 hX hY hl
  refine ⟨t, v, hr, ?_⟩
  obtain ⟨-, -, tr, te, -, e2, -, e4⟩ := C78_proportion hc hX (fun o ho => by injection ho with ho; subst ho; exact hY) hr
  obtain ⟨y, -, e5, -⟩ := e4
  have : holdoutNumber (1/5) X.pts.len = 0 := by
    have : X.pts.len = 0 ∨ X.pts.len = 1 ∨ X.pts.len = 2 ∨ X.pts.len = 3 ∨ X.pts.len = 4 := by omega
    rcases this with h | h | h | h | h <;> rw [h] <;> decide +kernel
  rw [this] at e2
  exact e5.len.trans e2

/-! ## Leave one group out -/

theorem keepPoints_spec {samp : List Nat → Nat → List Nat} {o r : Obj V} (h : o.WF) {keep : List Nat}
    (hn : keep.Nodup) (hb : ∀ i ∈ keep, i < o.pts.len) (hr : keepPoints samp keep o = .ok r) :
    SelectedSpec o r .point keep := by
  unfold keepPoints copy at hr
  obtain ⟨r', h1, h2⟩ := selected_spec h .point hn hb
  rw [(C08_list_selector h .point _ keep).2 ⟨intIds_index hb, hn⟩] at hr
  simp only [bind, Except.bind] at hr
  rw [h1] at hr
  injection hr with hr
  subst hr
  exact h2

theorem keep_nodup (missing : V → Bool) (vals : List V) :
    (keepNonMissing missing vals).Nodup ∧ ∀ i ∈ keepNonMissing missing vals, i < vals.length := by
  rw [C20_group_keeps_nonmissing]
  refine ⟨List.nodup_range.filter _, ?_⟩
  intro i hi
  exact List.mem_range.1 (List.mem_filter.1 hi).1

/-- C78. The folds of group values: a fold has either all or none of the points with one value, and the folds
together have every point once. So in `C21_split_aligned` no group is both trained and tested on. -/
theorem C78_groups [DecidableEq V] (vals : List V) :
    (groupFoldList vals).flatten.Perm (List.range vals.length) ∧
    ∀ f ∈ groupFoldList vals, ∃ v, (∀ i ∈ f, vals[i]? = some v) ∧
      ∀ (i : Nat), vals[i]? = some v → i ∈ f := by
  obtain ⟨h1, h2⟩ := C20_group_folds vals
  refine ⟨h2, ?_⟩
  intro f hf
  rw [h1] at hf
  obtain ⟨v, -, rfl⟩ := List.mem_map.1 hf
  refine ⟨v, ?_, ?_⟩
  · intro i hi
    exact of_decide_eq_true (List.mem_filter.1 hi).2
  · intro i hi
    refine List.mem_filter.2 ⟨List.mem_range.2 ?_, decide_eq_true hi⟩
    rcases Nat.lt_or_ge i vals.length with h | h
    · exact h
    · rw [List.getElem?_eq_none h] at hi; cases hi

/-- C78. Leave one group out with a feature of X: the points with a value in the fold feature are kept, in X and in
Y alike, each with its own label, and the folds are the groups of their values in the fold feature. -/
theorem C78_group_out [DecidableEq V] {samp : List Nat → Nat → List Nat} {missing : V → Bool} {X : Obj V}
    {Y : YArg V} {fold : Ident} (hX : X.WF) (hY : ∀ o, Y = .obj o → o.WF) {d : Obj V × Option (Obj V)}
    {folds : List (List Nat)} (h : groupOutData samp missing X Y fold = .ok (d, folds)) :
    ∃ vals : List V, foldValues samp X fold = .ok vals ∧ vals.length = X.pts.len ∧
      folds = groupFoldList (pick vals (keepNonMissing missing vals)) ∧
      ∃ (x0 : Obj V × Option (Obj V)), Part X Y (List.range X.pts.len) x0 ∧
        SelectedSpec x0.1 d.1 .point (keepNonMissing missing vals) ∧
        (∀ y0, x0.2 = some y0 → ∃ y, d.2 = some y ∧ SelectedSpec y0 y .point (keepNonMissing missing vals)) := by
  unfold groupOutData at h
  by_cases hs : sameIdent fold Y = true
  · rw [if_pos hs] at h; cases h
  rw [if_neg hs] at h
  simp only [bind, Except.bind] at h
  cases g1 : foldValues samp X fold with
  | error e => rw [g1] at h; cases h
  | ok vals =>
    rw [g1] at h
    dsimp only at h
    cases g2 : validatorData samp X Y with
    | error e => rw [g2] at h; cases h
    | ok x0 =>
      rw [g2] at h
      dsimp only at h
      cases g3 : keepPoints samp (keepNonMissing missing vals) x0.1 with
      | error e => rw [g3] at h; cases h
      | ok x =>
        rw [g3] at h
        dsimp only at h
        cases g4 : keepOpt samp (keepNonMissing missing vals) x0.2 with
        | error e => rw [g4] at h; cases h
        | ok y =>
          rw [g4] at h
          injection h with h
          injection h with h1 h2
          subst h1 h2
          -- the fold feature has one value for each point
          have hlen : vals.length = X.pts.len := by
            unfold foldValues copy at g1
            simp only [bind, Except.bind] at g1
            cases ht : X.targets samp .feature { target := some (.list [fold]) } with
            | error e => rw [ht] at g1; cases g1
            | ok tgt =>
              rw [ht] at g1
              dsimp only at g1
              obtain ⟨e1, e2⟩ := (C08_list_selector hX .feature [fold] tgt).1 ht
              obtain ⟨c, rfl, hc⟩ := mapIndex_singleton e1
              have hb : ∀ i ∈ [c], i < (X.axis .feature).len := by
                intro i hi
                rw [List.mem_singleton] at hi
                subst hi
                have := (getIndex_bound (hX.axisOk .feature) hc).2
                omega
              obtain ⟨r, hr, hsel⟩ := selected_spec hX .feature e2 hb
              rw [hr] at g1
              injection g1 with g1
              subst g1
              unfold columnOf
              have hw := hsel.wf
              have hl1 : r.data.length = r.pts.len := hw.rows
              have hl2 : ∀ row ∈ r.data, row.length = 1 := by
                intro row hrow
                rw [hw.cols row hrow]
                exact hsel.len
              rw [List.length_flatMap, List.map_congr_left (f := fun a => (id a).length) (g := fun _ => 1) (fun row hrow => hl2 row hrow)]
              have : r.pts.len = X.pts.len := hsel.offLen
              simp [hl1, this]
          obtain ⟨k1, k2⟩ := keep_nodup missing vals
          rw [hlen] at k2
          obtain ⟨s1, s2⟩ := validatorData_ok g2
          -- the data before the selection
          have hself : SelectedSpec X X .point (List.range X.pts.len) := by
            refine ⟨hX, ?_, ?_, ?_, rfl, rfl, rfl, rfl⟩
            · show X.data = pick X.data (List.range X.pts.len)
              rw [← hX.rows, pick_range]
            · show X.pts.len = _
              rw [List.length_range]
            · show X.pts.getNames = pick X.pts.getNames (List.range X.pts.len)
              have : X.pts.getNames.length = X.pts.len := hX.pts.length_getNames
              rw [← this, pick_range]
          have main : Part X Y (List.range X.pts.len) x0 ∧ x0.1.WF ∧ x0.1.pts.len = X.pts.len ∧
              ∀ y0, x0.2 = some y0 → y0.WF ∧ y0.pts.len = X.pts.len := by
            cases Y with
            | none =>
              injection s1 with s1
              subst s1
              exact ⟨⟨rfl, hself⟩, hX, rfl, fun y0 h0 => by cases h0⟩
            | ident id =>
              have hp := separate_part hX hself s1
              refine ⟨hp, ?_⟩
              obtain ⟨c, x1, y1, -, p2, p3, p4, p5⟩ := hp
              have hx1 : x1.pts.len = X.pts.len := by
                have := p3.len
                rw [List.length_range] at this
                exact this
              refine ⟨p4.wf, p4.offLen.trans hx1, ?_⟩
              intro y0 h0
              rw [p2] at h0
              injection h0 with h0
              subst h0
              exact ⟨p5.wf, p5.offLen.trans hx1⟩
            | obj Yo =>
              injection s1 with s1
              subst s1
              have hYo := hY Yo rfl
              have hl : X.pts.len = Yo.pts.len := by
                unfold sameLength at s2
                simpa using s2
              refine ⟨⟨Yo, rfl, hself, ?_⟩, hX, rfl, ?_⟩
              · rw [hl]
                refine ⟨hYo, ?_, ?_, ?_, rfl, rfl, rfl, rfl⟩
                · show Yo.data = pick Yo.data (List.range Yo.pts.len)
                  rw [← hYo.rows, pick_range]
                · show Yo.pts.len = _
                  rw [List.length_range]
                · show Yo.pts.getNames = pick Yo.pts.getNames (List.range Yo.pts.len)
                  have : Yo.pts.getNames.length = Yo.pts.len := hYo.pts.length_getNames
                  rw [← this, pick_range]
              · intro y0 h0
                injection h0 with h0
                subst h0
                exact ⟨hYo, hl.symm⟩
          obtain ⟨m1, m2, m3, m4⟩ := main
          refine ⟨vals, rfl, hlen, rfl, x0, m1, ?_, ?_⟩
          · exact keepPoints_spec m2 k1 (by rw [m3]; exact k2) g3
          · intro y0 h0
            obtain ⟨w1, w2⟩ := m4 y0 h0
            rw [h0] at g4
            unfold keepOpt at g4
            dsimp only at g4
            cases g5 : keepPoints samp (keepNonMissing missing vals) y0 with
            | error e => rw [g5] at g4; cases g4
            | ok y1 =>
              rw [g5] at g4
              injection g4 with g4
              subst g4
              exact ⟨y1, rfl, keepPoints_spec w1 k1 (by rw [w2]; exact k2) g5⟩

/-- Data with the features "g" and "x". -/
def groupDemo : Obj Nat :=
  ⟨[[1, 10], [2, 20], [1, 30], [2, 40]], ⟨4, none⟩, ⟨2, some ⟨[("g", 0), ("x", 1)], [some "g", some "x"]⟩⟩⟩

/-- The hypotheses of `C78_group_out` are met. -/
example : ((groupOutData (fun l k => l.take k) (fun v => v == 0) groupDemo (.ident (.str "x")) (.str "g")).map
    (fun r => (r.1.1.data, r.2))) = .ok ([[1], [2], [1], [2]], [[0, 2], [1, 3]]) := by decide +kernel

/-- The hypotheses of `C78_proportion` are met: a quarter of the points, labels in the feature "x". -/
example : ((proportionData (fun l k => l.take k) (fun _ k => [2, 1, 0].take k) (1/4) groupDemo (.ident (.str "x"))).map
    (fun r => (r.1.1.data, r.2.1.data, r.2.2.map Obj.data))) =
    .ok ([[1], [2], [2]], [[1]], some [[30]]) := by decide +kernel

/-- C78 violated: the labels cannot be the fold feature, but only if both are written alike: with the labels given
by name and the fold feature by index, or by indices 0 and -2, the same feature is accepted, and then the labels
of a fold never occur in its training data. -/
theorem C78_same_feature_violated :
    (groupOutData (fun l k => l.take k) (fun v => v == 0) groupDemo (.ident (.str "g")) (.str "g")) =
      .error .InvalidArgumentValueCombination ∧
    ((groupOutData (fun l k => l.take k) (fun v => v == 0) groupDemo (.ident (.str "g")) (.int 0)).map
      (fun r => (r.1.2.map Obj.data, r.2))) = .ok (some [[1], [2], [1], [2]], [[0, 2], [1, 3]]) ∧
    ((groupOutData (fun l k => l.take k) (fun v => v == 0) groupDemo (.ident (.int 0)) (.int (-2))).map
      (fun r => (r.1.2.map Obj.data, r.2))) = .ok (some [[1], [2], [1], [2]], [[0, 2], [1, 3]]) := by
  refine ⟨?_, ?_, ?_⟩
  · rfl
  · decide +kernel
  · decide +kernel

/-- C78. With validation data given: if no labels are given for it, they are the same feature of the validation
data that gives the training labels, and without such an identifier the call is refused. -/
theorem C78_validate_labels (samp : List Nat → Nat → List Nat) (X vX : Obj V) (Y : YArg V) :
    (∀ id, Y = .ident id → holdoutData samp X Y vX .none = holdoutData samp X Y vX (.ident id)) ∧
    ((∀ id, Y ≠ .ident id) → holdoutData samp X Y vX .none = .error .InvalidArgumentValue) := by
  constructor
  · rintro id rfl
    rfl
  · intro h
    cases Y with
    | none => rfl
    | ident id => exact absurd rfl (h id)
    | obj o => rfl

/-- C78. X and Y, and the validation X and Y, have equally many points whenever a validator is made. -/
theorem C78_lengths {samp : List Nat → Nat → List Nat} {X vX : Obj V} {Y vY : YArg V}
    {t v : Obj V × Option (Obj V)} (h : holdoutData samp X Y vX vY = .ok (t, v)) :
    (∀ y, t.2 = some y → y.pts.len = t.1.pts.len) ∧ (∀ y, v.2 = some y → y.pts.len = v.1.pts.len) := by
  unfold holdoutData at h
  simp only [bind, Except.bind] at h
  cases g0 : validateYArg Y vY with
  | error e => rw [g0] at h; cases h
  | ok vy =>
    rw [g0] at h
    dsimp only at h
    cases g1 : validatorData samp vX vy with
    | error e => rw [g1] at h; cases h
    | ok v' =>
      rw [g1] at h
      dsimp only at h
      cases g2 : validatorData samp X Y with
      | error e => rw [g2] at h; cases h
      | ok t' =>
        rw [g2] at h
        injection h with h
        injection h with h1 h2
        subst h1 h2
        have a := (validatorData_ok g1).2
        have b := (validatorData_ok g2).2
        constructor
        · intro y hy
          rw [hy] at b
          have : (t'.1.pts.len == y.pts.len) = true := b
          simpa using (beq_iff_eq.1 this).symm
        · intro y hy
          rw [hy] at a
          have : (v'.1.pts.len == y.pts.len) = true := a
          simpa using (beq_iff_eq.1 this).symm

end Nimble
