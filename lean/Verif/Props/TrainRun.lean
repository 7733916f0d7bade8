import Verif.Model.TrainRun
import Verif.Props.ValidatorData
import Verif.Props.ApplyScores

/-!
# C79: training, applying and testing in one call use the data they are given
-/

namespace Nimble.Run

open Nimble.Obj Nimble.Scores

variable {V M Q : Type}

/-- The learner `m` was made from the points of X, with the labels Y says, separated from X. -/
def TrainedOn (L : Lrn V M) (X : Obj V) (Y : YArg V) (d : Obj V × Option (Obj V)) (m : M) : Prop :=
  Part X Y (List.range X.pts.len) d ∧ L.fit d.1 d.2 = .ok m

/-- `r` is the answer of the learner `m` for `t`: its rows, under the point names of `t` and, for classification and
regression learners, under the names of the label features. -/
def AppliedTo (L : Lrn V M) (m : M) (y : Option (Obj V)) (t r : Obj V) : Prop :=
  ∃ p, L.apply m t = .ok p ∧ r.data = p.2 ∧ r.fts.len = p.1 ∧ PointNamesFrom t r ∧
    (L.named = true → ∀ y', y = some y' → y'.fts.len = p.1 → r.fts.getNames = y'.fts.getNames)

theorem selectedSpec_self {o : Obj V} (h : o.WF) : SelectedSpec o o .point (List.range o.pts.len) := by
  refine ⟨h, ?_, ?_, ?_, rfl, rfl, rfl, rfl⟩
  · show o.data = pick o.data (List.range o.pts.len)
    rw [← h.rows, pick_range]
  · show o.pts.len = _
    rw [List.length_range]
  · show o.pts.getNames = pick o.pts.getNames (List.range o.pts.len)
    have : o.pts.getNames.length = o.pts.len := h.pts.length_getNames
    rw [← this, pick_range]

theorem separate_all {samp : List Nat → Nat → List Nat} {X : Obj V} (hX : X.WF) {Y : YArg V}
    (hY : ∀ o, Y = .obj o → o.WF ∧ o.pts.len = X.pts.len) {d : Obj V × Option (Obj V)}
    (h : separate samp X Y = .ok d) : Part X Y (List.range X.pts.len) d := by
  cases Y with
  | none =>
    injection h with h
    subst h
    exact ⟨rfl, selectedSpec_self hX⟩
  | ident id => exact separate_part hX (selectedSpec_self hX) h
  | obj o =>
    injection h with h
    subst h
    obtain ⟨h1, h2⟩ := hY o rfl
    refine ⟨o, rfl, selectedSpec_self hX, ?_⟩
    rw [← h2]
    exact selectedSpec_self h1

theorem validTrain_ok {X : Obj V} {Y : YArg V} (h : validTrain X Y = .ok ()) :
    ∀ o, Y = .obj o → o.pts.len = X.pts.len := by
  rintro o rfl
  unfold validTrain at h
  dsimp only at h
  by_cases hl : o.pts.len = X.pts.len
  · exact hl
  · rw [if_neg hl] at h; cases h

theorem train_ok {samp : List Nat → Nat → List Nat} {L : Lrn V M} {X : Obj V} {Y : YArg V} {tl : Trained M}
    (h : train samp L X Y = .ok tl) :
    ∃ d, separate samp X Y = .ok d ∧ L.fit d.1 d.2 = .ok tl.model ∧ tl.shape = (d.1.pts.len, d.1.fts.len) ∧
      tl.yNames = labelNames d.2 := by
  unfold train at h
  simp only [bind, Except.bind] at h
  cases h1 : separate samp X Y with
  | error e => rw [h1] at h; cases h
  | ok d =>
    rw [h1] at h
    dsimp only at h
    cases h2 : L.fit d.1 d.2 with
    | error e => rw [h2] at h; cases h
    | ok m =>
      rw [h2] at h
      injection h with h
      subst h
      exact ⟨d, rfl, h2, rfl, rfl⟩

theorem withPointNames_ok {t : Obj V} {n : Nat} {a : AxisSt} (h : withPointNames t n = .ok a) :
    a.len = n ∧ (t.pts.len = n → a.getNames = t.pts.getNames) := by
  unfold withPointNames at h
  by_cases hl : t.pts.len = n
  · rw [if_pos hl] at h
    unfold AxisSt.getNamesNoGen at h
    cases ht : t.pts.tbl with
    | none =>
      rw [ht] at h
      injection h with h
      subst h
      refine ⟨rfl, fun _ => ?_⟩
      simp [AxisSt.getNames, ht, hl]
    | some x =>
      rw [ht] at h
      obtain ⟨e1, e2, -⟩ := C02_setNames_list_exact h
      refine ⟨e2, fun _ => ?_⟩
      rw [e1]
      simp [AxisSt.getNames, ht]
  · rw [if_neg hl] at h
    injection h with h
    subst h
    exact ⟨rfl, fun h => absurd h hl⟩

theorem nameFts_ok {named : Bool} {w : Nat} {y : Option (Obj V)} {a : AxisSt}
    (h : nameFts named w (toAssign (labelNames y)) = .ok a) :
    a.len = w ∧ (named = true → ∀ y', y = some y' → y'.fts.len = w → a.getNames = y'.fts.getNames) := by
  unfold nameFts at h
  cases named with
  | false =>
    injection h with h
    subst h
    exact ⟨rfl, fun h => by cases h⟩
  | true =>
    rw [if_pos rfl] at h
    cases y with
    | none =>
      injection h with h
      subst h
      exact ⟨rfl, fun _ y' hy => by cases hy⟩
    | some y =>
      replace h : AxisSt.setNames ⟨w, none⟩ (toAssign y.fts.getNamesNoGen) = .ok a := h
      unfold AxisSt.getNamesNoGen at h
      cases ht : y.fts.tbl with
      | none =>
        rw [ht] at h
        injection h with h
        subst h
        refine ⟨rfl, fun _ y' hy hl => ?_⟩
        injection hy with hy
        subst hy
        simp [AxisSt.getNames, ht, hl]
      | some x =>
        rw [ht] at h
        obtain ⟨e1, e2, -⟩ := C02_setNames_list_exact h
        refine ⟨e2, fun _ y' hy hl => ?_⟩
        injection hy with hy
        subst hy
        rw [e1]
        simp [AxisSt.getNames, ht]

theorem apply_spec {L : Lrn V M} {tl : Trained M} {y : Option (Obj V)} (hy : tl.yNames = labelNames y)
    {t r : Obj V} (h : apply L tl t = .ok r) :
    shapeCheck tl t = .ok () ∧ AppliedTo L tl.model y t r := by
  unfold Run.apply at h
  simp only [bind, Except.bind] at h
  cases h1 : shapeCheck tl t with
  | error e => rw [h1] at h; cases h
  | ok u =>
    rw [h1] at h
    dsimp only at h
    refine ⟨rfl, ?_⟩
    cases h2 : L.apply tl.model t with
    | error e => rw [h2] at h; cases h
    | ok p =>
      rw [h2] at h
      dsimp only at h
      cases h3 : nameFts L.named p.1 (toAssign tl.yNames) with
      | error e => rw [h3] at h; cases h
      | ok f =>
        rw [h3] at h
        dsimp only at h
        cases h4 : withPointNames t p.2.length with
        | error e => rw [h4] at h; cases h
        | ok a =>
          rw [h4] at h
          injection h with h
          subst h
          rw [hy] at h3
          obtain ⟨a1, a2⟩ := withPointNames_ok h4
          obtain ⟨b1, b2⟩ := nameFts_ok h3
          exact ⟨p, h2, rfl, b1, ⟨a1, a2⟩, b2⟩

theorem delete_takeOut {samp : List Nat → Nat → List Nat} {X o : Obj V} {id : Ident} {p : Obj V × Obj V}
    (hp : takeOut samp X .feature [id] = .ok p) (h : applyData samp X (.ident id) none = .ok o) : o = p.1 := by
  unfold takeOut at hp
  unfold applyData at h
  dsimp only at h
  obtain ⟨e1, e2⟩ := C07_delete_eq_extract (samp := samp) X .feature { target := some (.list [id]) }
  generalize X.delete samp .feature { target := some (.list [id]) } = a at *
  generalize X.extract samp .feature { target := some (.list [id]) } = b at *
  obtain ⟨a1, a2⟩ := a
  obtain ⟨b1, b2⟩ := b
  dsimp only at e1 e2
  subst e1
  cases b2 with
  | error e => cases hp
  | ok q =>
    subst e2
    injection hp with hp
    injection h with h
    subst hp h
    rfl

/-- C79. `trainAndApply`: the learner is trained on trainX without its labels and on exactly those labels, and the
result is its answer for testX; without testX it is its answer for the very data it was trained on. -/
theorem C79_apply {samp : List Nat → Nat → List Nat} {L : Lrn V M} {X : Obj V} {Y : YArg V} (hX : X.WF)
    (hY : ∀ o, Y = .obj o → o.WF) {T : Option (Obj V)} {r : Obj V}
    (h : trainAndApply samp L X Y T = .ok r) :
    ∃ d m, TrainedOn L X Y d m ∧ AppliedTo L m d.2 (T.getD d.1) r := by
  unfold trainAndApply at h
  simp only [bind, Except.bind] at h
  cases h1 : validTrain X Y with
  | error e => rw [h1] at h; cases h
  | ok u =>
    rw [h1] at h
    dsimp only at h
    have h0 : validTestArgs T (.none : YArg V) = .ok () := by cases T <;> rfl
    rw [h0] at h
    dsimp only at h
    cases h2 : train samp L X Y with
    | error e => rw [h2] at h; cases h
    | ok tl =>
      rw [h2] at h
      dsimp only at h
      cases h3 : applyData samp X Y T with
      | error e => rw [h3] at h; cases h
      | ok t =>
        rw [h3] at h
        dsimp only at h
        obtain ⟨d, d1, d2, d3, d4⟩ := train_ok h2
        obtain ⟨-, a1⟩ := apply_spec d4 h
        refine ⟨d, tl.model, ⟨separate_all hX (fun o ho => ⟨hY o ho, validTrain_ok h1 o ho⟩) d1, d2⟩, ?_⟩
        have ht : t = T.getD d.1 := by
          cases T with
          | some T =>
            cases Y <;> (injection h3 with h3; exact h3.symm)
          | none =>
            cases Y with
            | none =>
              injection h3 with h3
              injection d1 with d1
              subst d1
              exact h3.symm
            | obj o =>
              injection h3 with h3
              injection d1 with d1
              subst d1
              exact h3.symm
            | ident id =>
              unfold separate at d1
              dsimp only at d1
              cases hp : takeOut samp X .feature [id] with
              | error e => rw [hp] at d1; cases d1
              | ok p =>
                rw [hp] at d1
                injection d1 with d1
                subst d1
                exact delete_takeOut hp h3
        rw [← ht]
        exact a1

/-- The labels of the test data: those given for it, else those of the training data. -/
def testLabels (Y : YArg V) : YArg V → YArg V
  | .none => Y
  | y => y

theorem testArgs_separate {samp : List Nat → Nat → List Nat} {X : Obj V} {Y : YArg V} {T : Option (Obj V)}
    {TY : YArg V} {t : Obj V × YArg V} {te : Obj V × Option (Obj V)} (h : testArgs samp X Y T TY = .ok t)
    (hs : separate samp t.1 t.2 = .ok te) : separate samp (T.getD X) (testLabels Y TY) = .ok te := by
  cases TY with
  | none =>
    injection h with h
    subst h
    exact hs
  | obj y =>
    injection h with h
    subst h
    exact hs
  | ident id =>
    unfold testArgs at h
    dsimp only at h
    cases hp : takeOut samp (T.getD X) .feature [id] with
    | error e => rw [hp] at h; cases h
    | ok p =>
      rw [hp] at h
      injection h with h
      subst h
      injection hs with hs
      subst hs
      show separate samp (T.getD X) (.ident id) = _
      unfold separate
      dsimp only
      rw [hp]
      rfl

theorem test_ok {samp : List Nat → Nat → List Nat} {L : Lrn V M} {perf : Obj V → Obj V → Res Q} {tl : Trained M}
    {y : Option (Obj V)} (hy : tl.yNames = labelNames y) {T : Obj V} {Y : YArg V} {q : Q}
    (h : test samp L perf tl T Y = .ok q) :
    ∃ te pred, separate samp T Y = .ok te ∧ AppliedTo L tl.model y te.1 pred ∧ perf (known te.1 te.2) pred = .ok q := by
  unfold test at h
  simp only [bind, Except.bind] at h
  cases h1 : separate samp T Y with
  | error e => rw [h1] at h; cases h
  | ok te =>
    rw [h1] at h
    dsimp only at h
    cases h2 : Run.apply L tl te.1 with
    | error e => rw [h2] at h; cases h
    | ok pred =>
      rw [h2] at h
      exact ⟨te, pred, rfl, (apply_spec hy h2).2, h⟩

theorem testBackend_ok {samp : List Nat → Nat → List Nat} {L : Lrn V M} {perf : Obj V → Obj V → Res Q} {X : Obj V}
    {Y : YArg V} {T : Option (Obj V)} {TY : YArg V} {q : Q} (h : testBackend samp L perf X Y T TY = .ok q) :
    ∃ d m te pred, separate samp X Y = .ok d ∧ L.fit d.1 d.2 = .ok m ∧
      separate samp (T.getD X) (testLabels Y TY) = .ok te ∧ AppliedTo L m d.2 te.1 pred ∧
      perf (known te.1 te.2) pred = .ok q := by
  unfold testBackend at h
  simp only [bind, Except.bind] at h
  cases h2 : train samp L X Y with
  | error e => rw [h2] at h; cases h
  | ok tl =>
    rw [h2] at h
    dsimp only at h
    cases h3 : testArgs samp X Y T TY with
    | error e => rw [h3] at h; cases h
    | ok t =>
      rw [h3] at h
      dsimp only at h
      obtain ⟨d, d1, d2, d3, d4⟩ := train_ok h2
      obtain ⟨te, pred, e1, e2, e3⟩ := test_ok d4 h
      exact ⟨d, tl.model, te, pred, d1, d2, testArgs_separate h3 e1, e2, e3⟩

/-- The labels used for the test data belong to it: they are given for it, or the test data is the training data,
or they are a feature of it. -/
def LabelsBelong (Y : YArg V) (T : Option (Obj V)) (TY : YArg V) : Prop :=
  TY ≠ .none ∨ T = none ∨ ∀ o, Y ≠ .obj o

theorem known_eq (T : Obj V) (y : Option (Obj V)) : known T y = y.getD T := by cases y <;> rfl

/-- C79. `trainAndTest`: the performance is that of the learner's answer for the test data, separated from its
labels, against these labels (the test data itself if there are none). Without testX it is the training data,
without testY the labels are those trainY says. Missing: labels given by an object for trainX only. -/
theorem C79_test_partial {samp : List Nat → Nat → List Nat} {L : Lrn V M} {perf : Obj V → Obj V → Res Q} {X : Obj V}
    {Y : YArg V} {T : Option (Obj V)} {TY : YArg V} (hX : X.WF) (hY : ∀ o, Y = .obj o → o.WF)
    (hT : ∀ t, T = some t → t.WF) (hTY : ∀ o, TY = .obj o → o.WF) (hb : LabelsBelong Y T TY) {q : Q}
    (h : trainAndTest samp L perf X Y T TY = .ok q) :
    ∃ d m te pred, TrainedOn L X Y d m ∧
      Part (T.getD X) (testLabels Y TY) (List.range (T.getD X).pts.len) te ∧
      AppliedTo L m d.2 te.1 pred ∧ perf (te.2.getD te.1) pred = .ok q := by
  unfold trainAndTest at h
  simp only [bind, Except.bind] at h
  cases h1 : validTrain X Y with
  | error e => rw [h1] at h; cases h
  | ok u =>
    rw [h1] at h
    dsimp only at h
    cases h2 : validTestArgs T TY with
    | error e => rw [h2] at h; cases h
    | ok u =>
      rw [h2] at h
      dsimp only at h
      obtain ⟨d, m, te, pred, e1, e2, e3, e4, e5⟩ := testBackend_ok h
      have hY' : ∀ o, Y = .obj o → o.WF ∧ o.pts.len = X.pts.len :=
        fun o ho => ⟨hY o ho, validTrain_ok h1 o ho⟩
      refine ⟨d, m, te, pred, ⟨separate_all hX hY' e1, e2⟩, ?_, e4, by rw [← known_eq]; exact e5⟩
      have hTX : (T.getD X).WF := by
        cases T with
        | none => exact hX
        | some t => exact hT t rfl
      refine separate_all hTX ?_ e3
      intro o ho
      cases TY with
      | ident id => cases ho
      | obj y =>
        injection ho with ho
        subst ho
        refine ⟨hTY _ rfl, ?_⟩
        cases T with
        | none => cases h2
        | some t =>
          unfold validTestArgs at h2
          dsimp only at h2
          by_cases hl : y.pts.len = t.pts.len
          · exact hl
          · rw [if_neg hl] at h2; cases h2
      | none =>
        replace ho : Y = .obj o := ho
        rcases hb with hb | hb | hb
        · exact absurd rfl hb
        · subst hb
          exact hY' o ho
        · exact absurd ho (hb o)

/-- C79 violated: with testX but no testY, a label object given for trainX is taken for the labels of testX, and
nothing compares their numbers of points: the performance is computed against the labels of other points. And
testY without testX is refused with an AttributeError. -/
theorem C79_test_labels_violated (samp : List Nat → Nat → List Nat) (L : Lrn V M) (perf : Obj V → Obj V → Res Q)
    (X Y T : Obj V) (hl : Y.pts.len = X.pts.len) (y : Obj V) :
    (∀ m p pred, L.fit X (some Y) = .ok m → apply L ⟨m, (X.pts.len, X.fts.len), Y.fts.getNamesNoGen⟩ T = .ok pred →
      perf Y pred = .ok p → trainAndTest samp L perf X (.obj Y) (some T) .none = .ok p) ∧
    trainAndTest samp L perf X (.obj Y) none (.obj y) = .error .AttributeError := by
  have hv : validTrain X (.obj Y) = .ok () := by
    unfold validTrain
    dsimp only
    rw [if_pos hl]
  constructor
  · intro m p pred h1 h2 h3
    have ht : train samp L X (.obj Y) = .ok ⟨m, (X.pts.len, X.fts.len), Y.fts.getNamesNoGen⟩ := by
      unfold train separate
      simp only [bind, Except.bind, h1, pure, Except.pure, labelNames]
    unfold trainAndTest testBackend test testArgs validTestArgs
    simp only [bind, Except.bind, hv, ht]
    have hs : separate samp ((some T).getD X) (.obj Y) = .ok (T, some Y) := rfl
    simp only [hs, h2]
    exact h3
  · unfold trainAndTest
    simp only [bind, Except.bind, hv]
    rfl

/-- C79. `trainAndTestOnTrainingData` is `trainAndTest` without test data. -/
theorem C79_on_training_data (samp : List Nat → Nat → List Nat) (L : Lrn V M) (perf : Obj V → Obj V → Res Q)
    (X : Obj V) (Y : YArg V) : onTrainingData samp L perf X Y = trainAndTest samp L perf X Y none .none := by
  unfold onTrainingData trainAndTest
  have h0 : validTestArgs (none : Option (Obj V)) (.none : YArg V) = .ok () := rfl
  simp only [h0, bind, Except.bind]
  cases validTrain X Y with
  | error e => rfl
  | ok u =>
    dsimp only
    unfold testBackend
    simp only [bind, Except.bind]
    cases h2 : train samp L X Y with
    | error e => rfl
    | ok tl =>
      dsimp only
      cases Y with
      | none => rfl
      | obj o => rfl
      | ident id =>
        obtain ⟨d, d1, -⟩ := train_ok h2
        unfold separate at d1
        dsimp only at d1
        cases hp : takeOut samp X .feature [id] with
        | error e => rw [hp] at d1; cases d1
        | ok p =>
          unfold testArgs test separate
          simp only [bind, Except.bind, Option.getD, hp, pure, Except.pure]

theorem keepNames_ok {src r n : Obj V} (h : keepNames src r = .ok n) :
    n.data = r.data ∧ n.pts = r.pts ∧ n.fts.len = r.fts.len ∧
      (r.fts.len = src.fts.len → n.fts.getNames = src.fts.getNames) ∧ (r.fts.len ≠ src.fts.len → n = r) := by
  unfold keepNames at h
  by_cases hl : r.fts.len = src.fts.len
  · rw [if_pos hl] at h
    simp only [bind, Except.bind] at h
    unfold AxisSt.getNamesNoGen at h
    cases ht : src.fts.tbl with
    | none =>
      rw [ht] at h
      injection h with h
      subst h
      refine ⟨rfl, rfl, rfl, fun _ => ?_, fun h => absurd hl h⟩
      simp [AxisSt.getNames, ht, hl]
    | some x =>
      rw [ht] at h
      simp only [Option.map_some] at h
      cases hs : r.fts.setNames (toAssign (some x.inv)) with
      | error e =>
        rw [hs] at h
        cases h
      | ok f =>
        rw [hs] at h
        injection h with h
        subst h
        obtain ⟨e1, e2, -⟩ := C02_setNames_list_exact hs
        refine ⟨rfl, rfl, e2, fun _ => ?_, fun h => absurd hl h⟩
        show f.getNames = _
        rw [e1]
        simp [AxisSt.getNames, ht]
  · rw [if_neg hl] at h
    injection h with h
    subst h
    exact ⟨rfl, rfl, rfl, fun h => absurd h hl, fun _ => rfl⟩

/-- `r` is `t` normalized by the learner `m`: the learner's rows under the point names of `t`, and under its feature
names if there are equally many features. -/
def NormalizedBy (L : Lrn V M) (m : M) (t r : Obj V) : Prop :=
  ∃ p, L.apply m t = .ok p ∧ r.data = p.2 ∧ r.fts.len = p.1 ∧ PointNamesFrom t r ∧
    (p.1 = t.fts.len → r.fts.getNames = t.fts.getNames)

theorem normalized {L : Lrn V M} {m : M} {y : Option (Obj V)} {t r n : Obj V} (h : AppliedTo L m y t r)
    (hk : keepNames t r = .ok n) : NormalizedBy L m t n := by
  obtain ⟨p, h1, h2, h3, h4, -⟩ := h
  obtain ⟨k1, k2, k3, k4, -⟩ := keepNames_ok hk
  refine ⟨p, h1, by rw [k1, h2], by rw [k3, h3], ?_, fun hp => k4 (by rw [h3, hp])⟩
  unfold PointNamesFrom at h4 ⊢
  rw [k1, k2]
  exact h4

/-- C79. `normalizeData`: one learner, trained on trainX, gives both results: trainX and testX normalized by it. -/
theorem C79_normalize {samp : List Nat → Nat → List Nat} {L : Lrn V M} {X : Obj V} {Y : YArg V} (hX : X.WF)
    (hY : ∀ o, Y = .obj o → o.WF) {T : Option (Obj V)} {n : Obj V} {nt : Option (Obj V)}
    (h : normalizeData samp L X Y T = .ok (n, nt)) :
    ∃ d m, TrainedOn L X Y d m ∧ NormalizedBy L m X n ∧
      (T = none → nt = none) ∧ (∀ t, T = some t → ∃ r, nt = some r ∧ NormalizedBy L m t r) := by
  unfold normalizeData at h
  simp only [bind, Except.bind] at h
  cases h1 : validTrain X Y with
  | error e => rw [h1] at h; cases h
  | ok u =>
    rw [h1] at h
    dsimp only at h
    cases h2 : train samp L X Y with
    | error e => rw [h2] at h; cases h
    | ok tl =>
      rw [h2] at h
      dsimp only at h
      cases h3 : Run.apply L tl X with
      | error e => rw [h3] at h; cases h
      | ok r =>
        rw [h3] at h
        dsimp only at h
        cases h4 : keepNames X r with
        | error e => rw [h4] at h; cases h
        | ok n' =>
          rw [h4] at h
          dsimp only at h
          cases h5 : normalizeTest L tl T with
          | error e => rw [h5] at h; cases h
          | ok t' =>
            rw [h5] at h
            injection h with h
            injection h with ha hb
            subst ha hb
            obtain ⟨d, d1, d2, d3, d4⟩ := train_ok h2
            refine ⟨d, tl.model, ⟨separate_all hX (fun o ho => ⟨hY o ho, validTrain_ok h1 o ho⟩) d1, d2⟩,
              normalized (apply_spec d4 h3).2 h4, ?_, ?_⟩
            · rintro rfl
              injection h5 with h5
              exact h5.symm
            · rintro t rfl
              unfold normalizeTest at h5
              simp only [bind, Except.bind] at h5
              cases h6 : Run.apply L tl t with
              | error e => rw [h6] at h5; cases h5
              | ok r2 =>
                rw [h6] at h5
                dsimp only at h5
                cases h7 : keepNames t r2 with
                | error e => rw [h7] at h5; cases h5
                | ok n2 =>
                  rw [h7] at h5
                  injection h5 with h5
                  subst h5
                  exact ⟨n2, rfl, normalized (apply_spec d4 h6).2 h7⟩

/-- C79 violated: labels given to `normalizeData` as a feature of trainX (documented) are always refused, for the
learner trained without that feature is then applied to trainX with it. -/
theorem C79_normalize_identifier_violated (samp : List Nat → Nat → List Nat) (L : Lrn V M) {X : Obj V} (hX : X.WF)
    (id : Ident) (T : Option (Obj V)) : ¬ ∃ r, normalizeData samp L X (.ident id) T = .ok r := by
  rintro ⟨r, h⟩
  unfold normalizeData at h
  have hv : validTrain X (.ident id) = .ok () := rfl
  simp only [bind, Except.bind, hv] at h
  cases h2 : train samp L X (.ident id) with
  | error e => rw [h2] at h; cases h
  | ok tl =>
    rw [h2] at h
    dsimp only at h
    cases h3 : Run.apply L tl X with
    | error e => rw [h3] at h; cases h
    | ok r' =>
      obtain ⟨d, d1, d2, d3, d4⟩ := train_ok h2
      have hs := (apply_spec d4 h3).1
      obtain ⟨c, x0, y, c1, -, s1, s2, -⟩ := separate_part hX (selectedSpec_self hX) d1
      have hc : c < X.fts.len := by
        have := (getIndex_bound hX.fts c1).2
        omega
      have e1 : d.1.fts.len = X.fts.len - 1 := by
        have := s2.len
        rw [show (restIdx X.fts.len [c]).length = X.fts.len - [c].length from
          length_rest (by simp) (by simpa using hc)] at this
        exact this
      have e2 : d.1.pts.len = X.pts.len := by
        have a := s2.offLen
        have b := s1.len
        rw [List.length_range] at b
        exact a.trans b
      unfold shapeCheck at hs
      rw [d3] at hs
      dsimp only at hs
      rw [if_neg (by omega), if_neg (by omega)] at hs
      cases hs

/-- C79 violated: `incrementalTrain` does not separate labels given as a feature of trainX: a classification learner
fails with AttributeError, any other learner is handed trainX with its label feature, and the identifier. -/
theorem C79_incremental_violated (X : Obj V) (id : Ident) :
    incrementalData true X (.ident id) = .error .AttributeError ∧
    incrementalData false X (.ident id) = .ok (X, .ident id) := ⟨rfl, rfl⟩

/-- A learner that adds the first label to the last feature of each point. -/
def addLrn : Lrn Nat Nat where
  named := true
  fit := fun _ y => .ok (((y.bind (fun y => y.data.head?)).bind (fun r => r.head?)).getD 7)
  apply := fun m t => .ok (1, t.data.map (fun r => [m + r.getLast?.getD 0]))

/-- The hypotheses of `C79_apply` are met; X has the features "g" (the labels) and "x". -/
example : (trainAndApply (fun l k => l.take k) addLrn groupDemo (.ident (.str "g")) none).map
    (fun r => (r.data, r.fts.getNames)) = .ok ([[11], [21], [31], [41]], [some "g"]) := by decide +kernel

/-- The hypotheses of `C79_test_partial` are met: the labels of the test data are its feature "g". -/
example : trainAndTest (fun l k => l.take k) addLrn (fun y p => .ok (y.data, p.data)) groupDemo (.ident (.str "g"))
    (some ⟨[[5, 50]], ⟨1, none⟩, ⟨2, some ⟨[("g", 0), ("x", 1)], [some "g", some "x"]⟩⟩⟩) .none =
    .ok ([[5]], [[51]]) := by decide +kernel

/-- A learner that subtracts the first value it was trained with. -/
def subLrn : Lrn Nat Nat where
  named := false
  fit := fun x _ => .ok ((x.data.head?.bind (fun r => r.head?)).getD 0)
  apply := fun m t => .ok (t.fts.len, t.data.map (fun r => r.map (fun v => v - m)))

/-- The hypotheses of `C79_normalize` are met. -/
example : (normalizeData (fun l k => l.take k) subLrn groupDemo .none
    (some ⟨[[5, 50]], ⟨1, none⟩, ⟨2, none⟩⟩)).map
    (fun r => (r.1.data, r.1.fts.getNames, r.2.map Obj.data)) =
    .ok ([[0, 9], [1, 19], [0, 29], [1, 39]], [some "g", some "x"], some [[4, 49]]) := by decide +kernel

end Nimble.Run
