import Verif.Model.ApplyScores
import Verif.Props.Names

/-!
# C77: predictions and scores of a trained classification learner
-/

namespace Nimble.Scores

open Nimble.MultiClass

variable {X L : Type}

/-- The labels are linearly ordered. -/
structure LinOrd (le : L → L → Bool) : Prop where
  trans : ∀ a b c, le a b = true → le b c = true → le a c = true
  total : ∀ a b, (le a b || le b a) = true
  antisymm : ∀ a b, le a b = true → le b a = true → a = b

/-- The labels given since the last successful training. -/
def labelsSince : List L → List (TOp L) → List L
  | acc, [] => acc
  | _, .retrain d true :: ops => labelsSince d.ys ops
  | acc, .retrain _ false :: ops => labelsSince acc ops
  | acc, .incremental d _ :: ops => labelsSince (acc ++ d.ys) ops

theorem npUnique_spec [DecidableEq L] {le : L → L → Bool} (ho : LinOrd le) (l : List L) :
    (npUnique le l).Pairwise (fun a b => le a b = true ∧ a ≠ b) ∧ ∀ x, x ∈ npUnique le l ↔ x ∈ l := by
  unfold npUnique
  have hp := List.mergeSort_perm l.dedup le
  refine ⟨?_, fun x => by rw [hp.mem_iff, List.mem_dedup]⟩
  refine (List.pairwise_mergeSort ho.trans ho.total l.dedup).and ?_
  exact hp.nodup_iff.2 (List.nodup_dedup l)

theorem runOps_labels [DecidableEq L] {le : L → L → Bool} (ho : LinOrd le) : ∀ (ops : List (TOp L)) (s : TState L)
    (acc : List L), s.labels.Pairwise (fun a b => le a b = true ∧ a ≠ b) → (∀ x, x ∈ s.labels ↔ x ∈ acc) →
    (runOps le s ops).labels.Pairwise (fun a b => le a b = true ∧ a ≠ b) ∧
    (∀ x, x ∈ (runOps le s ops).labels ↔ x ∈ labelsSince acc ops) := by
  intro ops
  induction ops with
  | nil => intro s acc h1 h2; exact ⟨h1, h2⟩
  | cons o ops ih =>
    intro s acc h1 h2
    cases o with
    | retrain d ok =>
      cases ok with
      | true => exact ih _ d.ys (npUnique_spec ho d.ys).1 (npUnique_spec ho d.ys).2
      | false => exact ih s acc h1 h2
    | incremental d ok =>
      refine ih _ (acc ++ d.ys) (npUnique_spec ho (s.labels ++ d.ys)).1 ?_
      intro x
      have h3 : x ∈ npUnique le (s.labels ++ d.ys) ↔ x ∈ s.labels ++ d.ys :=
        (npUnique_spec ho (s.labels ++ d.ys)).2 x
      refine h3.trans ?_
      rw [List.mem_append, List.mem_append, h2 x]

/-- C77. After training and any history of retraining and incremental training, failing or not, the labels of the
learner are exactly the labels given since the last successful training, each once, in increasing order. -/
theorem C77_label_list [DecidableEq L] {le : L → L → Bool} (ho : LinOrd le) (d : Train L) (ops : List (TOp L)) :
    (runOps le (trained le d) ops).labels.Pairwise (fun a b => le a b = true ∧ a ≠ b) ∧
    ∀ x, x ∈ (runOps le (trained le d) ops).labels ↔ x ∈ labelsSince d.ys ops :=
  runOps_labels ho ops _ d.ys (npUnique_spec ho d.ys).1 (npUnique_spec ho d.ys).2

theorem runOps_kept [DecidableEq L] (le : L → L → Bool) : ∀ (ops : List (TOp L)) (s : TState L),
    (runOps le s ops).named = s.named ∧ (runOps le s ops).twoD = s.twoD ∧ (runOps le s ops).yNames = s.yNames := by
  intro ops
  induction ops with
  | nil => intro s; exact ⟨rfl, rfl, rfl⟩
  | cons o ops ih =>
    intro s
    have hs : (step le s o).named = s.named ∧ (step le s o).twoD = s.twoD ∧ (step le s o).yNames = s.yNames := by
      cases o with
      | retrain d ok => cases ok <;> exact ⟨rfl, rfl, rfl⟩
      | incremental d ok => exact ⟨rfl, rfl, rfl⟩
    obtain ⟨a, b, c⟩ := ih (step le s o)
    exact ⟨a.trans hs.1, b.trans hs.2.1, c.trans hs.2.2⟩

/-- A list whose order needs no change. -/
theorem mergeSort_labels {le : L → L → Bool} {l : List L}
    (h : l.Pairwise (fun a b => le a b = true ∧ a ≠ b)) : l.mergeSort le = l :=
  List.mergeSort_of_pairwise (h.imp (fun h => h.1))

/-- The names the result has for its points: those of the test data, if there is a result for each point. -/
def PointNamesFrom {V : Type} (t : Obj X) (o : Obj V) : Prop :=
  o.pts.len = o.data.length ∧ (t.pts.len = o.data.length → o.pts.getNames = t.pts.getNames)

theorem finish_spec {t : Obj X} {rows : List (List (Out L))} {fts : AxisSt} {o : Obj (Out L)}
    (h : finish t rows fts = .ok o) : o.data = rows ∧ o.fts = fts ∧ PointNamesFrom t o := by
  unfold finish at h
  by_cases hl : t.pts.len = rows.length
  · rw [if_pos hl] at h
    cases hn : AxisSt.setNames ⟨rows.length, none⟩ (toAssign t.pts.getNamesNoGen) with
    | error e => rw [hn] at h; cases h
    | ok pts =>
      rw [hn] at h
      injection h with h
      subst h
      refine ⟨rfl, rfl, ?_⟩
      cases hg : t.pts.getNamesNoGen with
      | none =>
        rw [hg] at hn
        obtain ⟨a', e1, e2, e3⟩ := C02_setNames_none ⟨rows.length, none⟩
        have : a' = pts := by
          have := e1.symm.trans hn
          injection this
        subst this
        refine ⟨e3, fun _ => e2.trans ?_⟩
        unfold AxisSt.getNamesNoGen at hg
        unfold AxisSt.getNames
        cases ht : t.pts.tbl with
        | none => show List.replicate rows.length none = List.replicate t.pts.len none; rw [hl]
        | some tb => rw [ht] at hg; cases hg
      | some l =>
        rw [hg] at hn
        obtain ⟨e1, e2, -⟩ := C02_setNames_list_exact hn
        refine ⟨e2, fun _ => e1.trans ?_⟩
        unfold AxisSt.getNamesNoGen at hg
        unfold AxisSt.getNames
        cases ht : t.pts.tbl with
        | none => rw [ht] at hg; cases hg
        | some tb => rw [ht] at hg; injection hg with hg; exact hg.symm
  · rw [if_neg hl] at h
    injection h with h
    subst h
    exact ⟨rfl, rfl, rfl, fun h => absurd h hl⟩

theorem checkMode_some (s : TState L) (m : String) : checkMode s (some m) =
    if ¬ (lower m = "bestscore" ∨ lower m = "allscores") then .error .InvalidArgumentValue
    else if s.twoD then .error .InvalidArgumentValueCombination
    else .ok () := rfl

theorem applyMode_some [DecidableEq L] (le : L → L → Bool) (str : L → String) (s : TState L) (b : Backend X L)
    (t : Obj X) (m : String) : applyMode le str s b t (some m) =
    if m = "allScores" then applyAll le str s b t
    else if m = "bestScore" then applyBest le s b t
    else (do
      let _ ← getScores le s b t
      let _ ← b.apply t
      .error .InvalidArgumentValue) := rfl

/-- What `apply` ran if it succeeds. -/
theorem apply_ok [DecidableEq L] {le : L → L → Bool} {str : L → String} {s : TState L} {b : Backend X L} {t : Obj X}
    {mode : Option String} {o : Obj (Out L)} (h : apply le str s b t mode = .ok o) :
    checkMode s mode = .ok () ∧ validTest s t = .ok () ∧ applyMode le str s b t mode = .ok o := by
  unfold apply at h
  simp only [bind, Except.bind] at h
  cases h1 : checkMode s mode with
  | error e => rw [h1] at h; cases h
  | ok u =>
    rw [h1] at h
    dsimp only at h
    cases h2 : validTest s t with
    | error e => rw [h2] at h; cases h
    | ok u => rw [h2] at h; exact ⟨rfl, rfl, h⟩

/-- C77. `apply` accepts test data exactly if it has as many features as the training data, or both are square. -/
theorem C77_test_shape (s : TState L) (t : Obj X) :
    (validTest s t = .ok () ↔ t.fts.len = s.shape.2 ∨ (s.shape.1 = s.shape.2 ∧ t.pts.len = t.fts.len)) ∧
    (validTest s t ≠ .ok () → validTest s t = .error .InvalidArgumentValueCombination) := by
  unfold validTest
  by_cases h1 : s.shape.2 = t.fts.len
  · rw [if_pos h1]
    exact ⟨⟨fun _ => .inl h1.symm, fun _ => rfl⟩, fun h => absurd rfl h⟩
  · rw [if_neg h1]
    by_cases h2 : s.shape.1 = s.shape.2 ∧ t.pts.len = t.fts.len
    · rw [if_pos h2]
      exact ⟨⟨fun _ => .inr h2, fun _ => rfl⟩, fun h => absurd rfl h⟩
    · rw [if_neg h2]
      refine ⟨⟨fun h => (by cases h), ?_⟩, fun _ => rfl⟩
      rintro (h | h)
      · exact absurd h.symm h1
      · exact absurd h h2

/-- C77. Without a score mode the result is what the learner predicts, with the names of the label features the
learner was trained with, and the point names of the test data. -/
theorem C77_predictions [DecidableEq L] {le : L → L → Bool} {str : L → String} {s : TState L} {b : Backend X L}
    {t : Obj X} {o : Obj (Out L)} (hn : s.named = true) (h : apply le str s b t none = .ok o) :
    ∃ p : Nat × List (List L), b.apply t = .ok p ∧ o.data = p.2.map (fun r => r.map Out.label) ∧
      o.fts.getNames = (s.yNames.getD (List.replicate p.1 none)) ∧ PointNamesFrom t o := by
  obtain ⟨-, -, h⟩ := apply_ok h
  replace h : applyLabels s b t = .ok o := h
  unfold applyLabels at h
  simp only [bind, Except.bind] at h
  cases h1 : b.apply t with
  | error e => rw [h1] at h; cases h
  | ok p =>
    rw [h1] at h
    dsimp only at h
    cases h2 : nameFts s.named p.1 (toAssign s.yNames) with
    | error e => rw [h2] at h; cases h
    | ok fts =>
      rw [h2] at h
      obtain ⟨e1, e2, e3⟩ := finish_spec h
      refine ⟨p, rfl, e1, ?_, e3⟩
      rw [e2]
      unfold nameFts at h2
      rw [hn, if_pos rfl] at h2
      cases hy : s.yNames with
      | none =>
        rw [hy] at h2
        replace h2 : (.ok ⟨p.1, none⟩ : Res AxisSt) = .ok fts := h2
        injection h2 with h2
        subst h2
        rfl
      | some l =>
        rw [hy] at h2
        exact (C02_setNames_list_exact h2).1

/-- What `allScores` returns: the scores of `getScores`. -/
theorem applyAll_spec [DecidableEq L] {le : L → L → Bool} {str : L → String} {s : TState L} {b : Backend X L}
    {t : Obj X} {o : Obj (Out L)} (hn : s.named = true) (h : apply le str s b t (some "allScores") = .ok o) :
    ∃ p : Nat × List (List Rat), getScores le s b t = .ok p ∧ o.data = p.2.map (fun r => r.map Out.score) ∧
      o.fts.getNames = s.labels.map (fun l => some (str l)) ∧ p.1 = s.labels.length ∧ PointNamesFrom t o := by
  obtain ⟨-, -, h⟩ := apply_ok h
  replace h : applyAll le str s b t = .ok o := h
  unfold applyAll at h
  simp only [bind, Except.bind] at h
  cases h1 : getScores le s b t with
  | error e => rw [h1] at h; cases h
  | ok p =>
    rw [h1] at h
    dsimp only at h
    cases h2 : nameFts s.named p.1 (.list (s.labels.map (fun l => some (str l)))) with
    | error e => rw [h2] at h; cases h
    | ok fts =>
      rw [h2] at h
      obtain ⟨e1, e2, e3⟩ := finish_spec h
      unfold nameFts at h2
      rw [hn, if_pos rfl] at h2
      refine ⟨p, rfl, e1, ?_, ?_, e3⟩
      · rw [e2]
        exact (C02_setNames_list_exact h2).1
      · have := ((C02_setNames_list_accepts_iff _ _).1 ⟨_, h2⟩).1
        rw [List.length_map] at this
        exact this.symm

/-- The scores of the learner itself, if it gives one for each label. -/
theorem getScores_eq [DecidableEq L] {le : L → L → Bool} {s : TState L} {b : Backend X L} {t : Obj X}
    {raw : List (List Rat)} (hs : s.labels.mergeSort le = s.labels) (hv : validTest s t = .ok ())
    (hb : b.scores t = .ok (s.labels.length, raw)) (h3 : s.labels.length = 3 → b.strategy = .ok true) :
    getScores le s b t = .ok (s.labels.length, raw) := by
  unfold getScores
  have hf : formatAll b s.labels.length s.labels.length raw = .ok (s.labels.length, raw) := by
    unfold formatAll
    rw [if_neg (by omega)]
    have : isOva b s.labels.length s.labels.length = .ok true := by
      unfold isOva
      by_cases h : s.labels.length = 3
      · rw [if_neg (by simp [h])]; exact h3 h
      · rw [if_pos ⟨h, h⟩]; simp
    simp only [bind, Except.bind, this]
    rfl
  have hn : natural le s.labels (s.labels.length, raw) = .ok (s.labels.length, raw) := by
    unfold natural
    rw [if_pos hs]
  simp only [bind, Except.bind, hv, hb, hf, hn]

/-- C77. After any history, with the score mode 'allScores' the result has one feature for each label, in
increasing order of the labels and named after them, and the score of a point for a label is the score the learner
gives to that label at that place of its increasing list of labels. -/
theorem C77_all_scores [DecidableEq L] {le : L → L → Bool} (ho : LinOrd le) {str : L → String} (d : Train L)
    (ops : List (TOp L)) {b : Backend X L} {t : Obj X} {o : Obj (Out L)} {raw : List (List Rat)}
    (hb : b.scores t = .ok ((runOps le (trained le d) ops).labels.length, raw))
    (h3 : (runOps le (trained le d) ops).labels.length = 3 → b.strategy = .ok true)
    (h : apply le str (runOps le (trained le d) ops) b t (some "allScores") = .ok o) :
    o.data = raw.map (fun r => r.map Out.score) ∧
    o.fts.getNames = (runOps le (trained le d) ops).labels.map (fun l => some (str l)) ∧ PointNamesFrom t o := by
  obtain ⟨p, h1, h2, h4, -, h5⟩ := applyAll_spec (runOps_kept le ops (trained le d)).1 h
  obtain ⟨-, hv, -⟩ := apply_ok h
  have := getScores_eq (mergeSort_labels (C77_label_list ho d ops).1) hv hb h3
  rw [this] at h1
  injection h1 with h1
  subst h1
  exact ⟨h2, h4, h5⟩

theorem bestRows_spec [DecidableEq L] {labels : List L} : ∀ {scs : List (List Rat)} {ps : List (List L)}
    {rows : List (List (Out L))}, bestRows labels scs ps = .ok rows →
    scs.length = rows.length ∧ ps.length = rows.length ∧
    ∀ (i : Nat) row, rows[i]? = some row → ∃ sc p l q, scs[i]? = some sc ∧ ps[i]? = some p ∧
      p.getLast? = some l ∧ l ∈ labels ∧ sc[labels.idxOf l]? = some q ∧ row = p.map Out.label ++ [Out.score q] := by
  intro scs
  induction scs with
  | nil =>
    intro ps rows h
    cases ps with
    | nil => injection h with h; subst h; exact ⟨rfl, rfl, fun i row h => by simp at h⟩
    | cons p ps => cases h
  | cons sc scs ih =>
    intro ps rows h
    cases ps with
    | nil => cases h
    | cons p ps =>
      unfold bestRows at h
      simp only [bind, Except.bind] at h
      cases h1 : bestOf labels sc p with
      | error e => rw [h1] at h; cases h
      | ok q =>
        rw [h1] at h
        dsimp only at h
        cases h2 : bestRows labels scs ps with
        | error e => rw [h2] at h; cases h
        | ok rest =>
          rw [h2] at h
          injection h with h
          subst h
          obtain ⟨e1, e2, e3⟩ := ih h2
          refine ⟨by simp [e1], by simp [e2], ?_⟩
          intro i row hi
          cases i with
          | succ i => exact e3 i row hi
          | zero =>
            injection hi with hi
            unfold bestOf at h1
            cases hp : p.getLast? with
            | none => rw [hp] at h1; cases h1
            | some l =>
              rw [hp] at h1
              dsimp only at h1
              by_cases hl : l ∈ labels
              · rw [if_pos hl] at h1
                unfold getScore at h1
                cases hq : sc[labels.idxOf l]? with
                | none => rw [hq] at h1; cases h1
                | some q' =>
                  rw [hq] at h1
                  injection h1 with h1
                  subst h1
                  exact ⟨sc, p, l, q', rfl, rfl, hp, hl, hq, hi.symm⟩
              · rw [if_neg hl] at h1; cases h1

theorem applyBest_spec [DecidableEq L] {le : L → L → Bool} {str : L → String} {s : TState L} {b : Backend X L}
    {t : Obj X} {o : Obj (Out L)} (hn : s.named = true) (h : apply le str s b t (some "bestScore") = .ok o) :
    ∃ (sc : Nat × List (List Rat)) (p : Nat × List (List L)), getScores le s b t = .ok sc ∧ b.apply t = .ok p ∧
      bestRows s.labels sc.2 p.2 = .ok o.data ∧
      o.fts.getNames = (match s.yNames with
        | none => List.replicate (p.1 + 1) none
        | some l => l ++ [some "bestScore"]) ∧ PointNamesFrom t o := by
  obtain ⟨-, -, h⟩ := apply_ok h
  replace h : applyBest le s b t = .ok o := h
  unfold applyBest at h
  simp only [bind, Except.bind] at h
  cases h1 : getScores le s b t with
  | error e => rw [h1] at h; cases h
  | ok sc =>
    rw [h1] at h
    dsimp only at h
    cases h2 : b.apply t with
    | error e => rw [h2] at h; cases h
    | ok p =>
      rw [h2] at h
      dsimp only at h
      by_cases h0 : sc.2 = []
      · rw [if_pos h0] at h; cases h
      rw [if_neg h0] at h
      cases h3 : bestRows s.labels sc.2 p.2 with
      | error e => rw [h3] at h; cases h
      | ok rows =>
        rw [h3] at h
        dsimp only at h
        cases h4 : bestNames s (p.1 + 1) with
        | error e => rw [h4] at h; cases h
        | ok fts =>
          rw [h4] at h
          obtain ⟨e1, e2, e3⟩ := finish_spec h
          refine ⟨sc, p, rfl, rfl, by rw [e1]; exact h3, ?_, e3⟩
          rw [e2]
          unfold bestNames at h4
          cases hy : s.yNames with
          | none =>
            rw [hy] at h4
            injection h4 with h4
            subst h4
            rfl
          | some l =>
            rw [hy] at h4
            dsimp only at h4
            unfold nameFts at h4
            rw [hn, if_pos rfl] at h4
            exact (C02_setNames_list_exact h4).1

/-- C77. With the score mode 'bestScore' each point has the prediction that `apply` gives without a score mode,
followed by the score that 'allScores' has for it in the feature named after the predicted label; the feature
names are those of the predictions and `bestScore`. -/
theorem C77_best_score [DecidableEq L] {le : L → L → Bool} {str : L → String} {s : TState L} {b : Backend X L}
    {t : Obj X} {o1 o2 o3 : Obj (Out L)} (hn : s.named = true) (h1 : apply le str s b t none = .ok o1)
    (h2 : apply le str s b t (some "allScores") = .ok o2) (h3 : apply le str s b t (some "bestScore") = .ok o3) :
    o3.data.length = o1.data.length ∧ o3.data.length = o2.data.length ∧
    (∀ (i : Nat) row, o3.data[i]? = some row → ∃ (r1 r2 : List (Out L)) (l : L) (q : Rat) (j : Nat),
      o1.data[i]? = some r1 ∧ o2.data[i]? = some r2 ∧ row = r1 ++ [Out.score q] ∧
      r1.getLast? = some (Out.label l) ∧ l ∈ s.labels ∧
      o2.fts.getNames[j]? = some (some (str l)) ∧ r2[j]? = some (Out.score q)) ∧
    (s.yNames ≠ none → o3.fts.getNames = o1.fts.getNames ++ [some "bestScore"]) := by
  obtain ⟨p, a1, a2, a3, -⟩ := C77_predictions hn h1
  obtain ⟨sc, b1, b2, b3, -, -⟩ := applyAll_spec hn h2
  obtain ⟨sc', p', c1, c2, c3, c4, -⟩ := applyBest_spec hn h3
  rw [b1] at c1
  injection c1 with c1
  subst c1
  rw [a1] at c2
  injection c2 with c2
  subst c2
  obtain ⟨d1, d2, d3⟩ := bestRows_spec c3
  refine ⟨by rw [a2, List.length_map, d2], by rw [b2, List.length_map, d1], ?_, ?_⟩
  · intro i row hi
    obtain ⟨scr, pr, l, q, e1, e2, e3, e4, e5, e6⟩ := d3 i row hi
    refine ⟨pr.map Out.label, scr.map Out.score, l, q, s.labels.idxOf l, ?_, ?_, e6, ?_, e4, ?_, ?_⟩
    · rw [a2, List.getElem?_map, e2]; rfl
    · rw [b2, List.getElem?_map, e1]; rfl
    · rw [List.getLast?_map, e3]; rfl
    · rw [b3, List.getElem?_map, List.getElem?_eq_getElem (List.idxOf_lt_length_of_mem e4), List.getElem_idxOf]
      rfl
    · rw [List.getElem?_map, e5]; rfl
  · intro hy
    rw [c4, a3]
    cases h : s.yNames with
    | none => exact absurd h hy
    | some l => rfl

/-- C77. `apply` succeeds only without a score mode or with one of the two, for a single label feature; any other
string that does not spell one of them is refused before the learner is asked. -/
theorem C77_modes [DecidableEq L] (le : L → L → Bool) (str : L → String) (s : TState L) (b : Backend X L)
    (t : Obj X) (mode : Option String) :
    (∀ o, apply le str s b t mode = .ok o →
      mode = none ∨ (s.twoD = false ∧ (mode = some "allScores" ∨ mode = some "bestScore"))) ∧
    (∀ m, mode = some m → lower m ≠ "allscores" → lower m ≠ "bestscore" →
      apply le str s b t mode = .error .InvalidArgumentValue) := by
  constructor
  · intro o h
    obtain ⟨h1, -, h⟩ := apply_ok h
    cases mode with
    | none => exact .inl rfl
    | some m =>
      right
      constructor
      · rw [checkMode_some] at h1
        split at h1
        · cases h1
        · split at h1
          · cases h1
          · next h => simpa using h
      · rw [applyMode_some] at h
        by_cases e1 : m = "allScores"
        · exact .inl (by rw [e1])
        · by_cases e2 : m = "bestScore"
          · exact .inr (by rw [e2])
          · rw [if_neg e1, if_neg e2] at h
            simp only [bind, Except.bind] at h
            cases g1 : getScores le s b t with
            | error e => rw [g1] at h; cases h
            | ok p =>
              rw [g1] at h
              dsimp only at h
              cases g2 : b.apply t with
              | error e => rw [g2] at h; cases h
              | ok p => rw [g2] at h; cases h
  · intro m hm h1 h2
    subst hm
    unfold apply
    have : checkMode s (some m) = .error .InvalidArgumentValue := by
      rw [checkMode_some, if_pos]
      rintro (h | h)
      · exact h2 h
      · exact h1 h
    simp only [bind, Except.bind, this]

/-- C77 violated: the check lets through every spelling of the two modes, but only one is understood: with
'bestscore' or 'AllScores' the learner is asked for scores and labels and then the call is refused. -/
theorem C77_spelling_violated [DecidableEq L] (le : L → L → Bool) (str : L → String) (s : TState L)
    (b : Backend X L) (t : Obj X) (h2 : s.twoD = false) :
    checkMode s (some "bestscore") = .ok () ∧ checkMode s (some "AllScores") = .ok () ∧
    (∀ o, apply le str s b t (some "bestscore") ≠ .ok o) ∧ (∀ o, apply le str s b t (some "AllScores") ≠ .ok o) := by
  have e1 : lower "bestscore" = "bestscore" := by decide +kernel
  have e2 : lower "AllScores" = "allscores" := by decide +kernel
  refine ⟨?_, ?_, fun o h => ?_, fun o h => ?_⟩
  · rw [checkMode_some, if_neg (by rw [e1]; simp), h2]
    rfl
  · rw [checkMode_some, if_neg (by rw [e2]; simp), h2]
    rfl
  · rcases (C77_modes le str s b t (some "bestscore")).1 o h with h | ⟨-, h | h⟩
    · cases h
    · exact absurd (Option.some.inj h) (by decide)
    · exact absurd (Option.some.inj h) (by decide)
  · rcases (C77_modes le str s b t (some "AllScores")).1 o h with h | ⟨-, h | h⟩
    · cases h
    · exact absurd (Option.some.inj h) (by decide)
    · exact absurd (Option.some.inj h) (by decide)

/-- C77 violated: predictions after retraining have the feature names of the first training, whatever the label
features of the last training are called. -/
theorem C77_retrain_names_violated [DecidableEq L] {le : L → L → Bool} {str : L → String} (d : Train L)
    (ops : List (TOp L)) {b : Backend X L} {t : Obj X} {o : Obj (Out L)} {names : List (Option String)}
    (hy : d.yNames = some names) (h : apply le str (runOps le (trained le d) ops) b t none = .ok o) :
    o.fts.getNames = names := by
  obtain ⟨hn, -, hk⟩ := runOps_kept le ops (trained le d)
  obtain ⟨p, -, -, h3, -⟩ := C77_predictions hn h
  rw [h3, hk]
  show d.yNames.getD _ = _
  rw [hy]
  rfl

/-- Test data with two points named "u" and "v" and one feature. -/
def demoTest : Obj Nat := ⟨[[7], [8]], ⟨2, some ⟨[("u", 0), ("v", 1)], [some "u", some "v"]⟩⟩, ⟨1, none⟩⟩

/-- A learner for the labels 0, 1, 4 and 9. -/
def demoBack : Backend Nat Nat :=
  ⟨fun _ => .ok (1, [[4], [0]]), fun _ => .ok (4, [[1, 2, 5, 0], [6, 1, 1, 0]]), .ok true⟩

/-- Its training. -/
def demoTrain : Train Nat := ⟨[9, 0, 4, 1, 4], some [some "y"], (5, 1)⟩

def demoStr (n : Nat) : String := toString n

theorem demo_unique : npUnique (fun a b => decide ((a : Nat) ≤ b)) [9, 0, 4, 1, 4] = [0, 1, 4, 9] := by
  have : ([9, 0, 4, 1, 4] : List Nat).dedup = [9, 0, 1, 4] := by decide
  unfold npUnique
  rw [this]
  simp [List.mergeSort, List.MergeSort.Internal.splitInTwo]

theorem demo_unique' : npUnique (fun a b => decide ((a : Nat) ≤ b)) [0, 1, 4, 9, 5] = [0, 1, 4, 5, 9] := by
  have : ([0, 1, 4, 9, 5] : List Nat).dedup = [0, 1, 4, 9, 5] := by decide
  unfold npUnique
  rw [this]
  simp [List.mergeSort, List.MergeSort.Internal.splitInTwo]

theorem natLinOrd : LinOrd (fun a b => decide ((a : Nat) ≤ b)) :=
  ⟨fun a b c h1 h2 => by simp at *; omega, fun a b => by simp; omega, fun a b h1 h2 => by simp at *; omega⟩

theorem demo_trained : trained (fun a b => decide ((a : Nat) ≤ b)) demoTrain =
    ⟨true, false, (5, 1), some [some "y"], [0, 1, 4, 9]⟩ := by
  unfold trained
  show TState.mk true false (5, 1) (some [some "y"]) (npUnique _ [9, 0, 4, 1, 4]) = _
  rw [demo_unique]

theorem demo_scores : getScores (fun a b => decide ((a : Nat) ≤ b))
    (trained (fun a b => decide ((a : Nat) ≤ b)) demoTrain) demoBack demoTest =
    .ok (4, [[1, 2, 5, 0], [6, 1, 1, 0]]) := by
  have hs : ([0, 1, 4, 9] : List Nat).mergeSort (fun a b => decide (a ≤ b)) = [0, 1, 4, 9] :=
    List.mergeSort_of_pairwise (by decide)
  rw [demo_trained]
  exact getScores_eq (s := ⟨true, false, (5, 1), some [some "y"], [0, 1, 4, 9]⟩) (b := demoBack) (t := demoTest)
    (raw := [[1, 2, 5, 0], [6, 1, 1, 0]]) hs (by decide) rfl (fun h => absurd h (by decide))

/-- The three calls succeed for this learner: the hypotheses of `C77_best_score` are met. -/
theorem demo_apply :
    let s := trained (fun a b => decide ((a : Nat) ≤ b)) demoTrain
    let run := apply (fun a b => decide ((a : Nat) ≤ b)) demoStr s demoBack demoTest
    (run none).map (fun o => (o.data, o.fts.getNames, o.pts.getNames)) =
      .ok ([[.label 4], [.label 0]], [some "y"], [some "u", some "v"]) ∧
    (run (some "allScores")).map (fun o => (o.data, o.fts.getNames)) =
      .ok ([[.score 1, .score 2, .score 5, .score 0], [.score 6, .score 1, .score 1, .score 0]],
        [some "0", some "1", some "4", some "9"]) ∧
    (run (some "bestScore")).map (fun o => (o.data, o.fts.getNames)) =
      .ok ([[.label 4, .score 5], [.label 0, .score 6]], [some "y", some "bestScore"]) := by
  have hv : validTest (trained (fun a b => decide ((a : Nat) ≤ b)) demoTrain) demoTest = .ok () := by decide
  dsimp only
  refine ⟨?_, ?_, ?_⟩
  · unfold apply
    rw [demo_trained]
    decide +kernel
  · have : apply (fun a b => decide ((a : Nat) ≤ b)) demoStr
        (trained (fun a b => decide ((a : Nat) ≤ b)) demoTrain) demoBack demoTest (some "allScores") =
        (do let fts ← nameFts true 4 (.list ([0, 1, 4, 9].map (fun l => some (demoStr l))))
            finish demoTest ([[1, 2, 5, 0], [6, 1, 1, 0]].map (fun r => r.map Out.score)) fts) := by
      unfold apply
      rw [applyMode_some]
      have hc : checkMode (trained (fun a b => decide ((a : Nat) ≤ b)) demoTrain) (some "allScores") = .ok () := by
        rw [demo_trained]; decide +kernel
      rw [hc, hv, if_pos rfl]
      unfold applyAll
      rw [demo_scores, demo_trained]
      rfl
    rw [this]
    decide +kernel
  · have : apply (fun a b => decide ((a : Nat) ≤ b)) demoStr
        (trained (fun a b => decide ((a : Nat) ≤ b)) demoTrain) demoBack demoTest (some "bestScore") =
        (do let rows ← bestRows [0, 1, 4, 9] [[1, 2, 5, 0], [6, 1, 1, 0]] [[4], [0]]
            let fts ← bestNames ⟨true, false, (5, 1), some [some "y"], [0, 1, 4, 9]⟩ 2
            finish demoTest rows fts) := by
      unfold apply
      rw [applyMode_some]
      have hc : checkMode (trained (fun a b => decide ((a : Nat) ≤ b)) demoTrain) (some "bestScore") = .ok () := by
        rw [demo_trained]; decide +kernel
      rw [hc, hv, if_neg (by decide), if_pos rfl]
      unfold applyBest
      rw [demo_scores, demo_trained]
      rfl
    rw [this]
    decide +kernel

/-- C77 violated: an `incrementalTrain` that the learner refuses still adds its labels, and the scores of the
unchanged learner are read as those of pairs: a learner of four labels, refused the label 5, has no scores any more. -/
theorem C77_failed_incremental_violated :
    let s := runOps (fun a b => decide ((a : Nat) ≤ b)) (trained (fun a b => decide ((a : Nat) ≤ b)) demoTrain)
      [.incremental ⟨[5], none, (1, 1)⟩ false]
    s.labels = [0, 1, 4, 5, 9] ∧
    getScores (fun a b => decide ((a : Nat) ≤ b)) s demoBack demoTest = .error .IndexError := by
  have hs : runOps (fun a b => decide ((a : Nat) ≤ b)) (trained (fun a b => decide ((a : Nat) ≤ b)) demoTrain)
      [.incremental ⟨[5], none, (1, 1)⟩ false] =
      ⟨true, false, (5, 1), some [some "y"], [0, 1, 4, 5, 9]⟩ := by
    rw [demo_trained]
    show TState.mk true false (5, 1) (some [some "y"]) (npUnique _ [0, 1, 4, 9, 5]) = _
    rw [demo_unique']
  dsimp only
  rw [hs]
  refine ⟨rfl, ?_⟩
  unfold getScores
  have : formatAll demoBack 5 4 [[1, 2, 5, 0], [6, 1, 1, 0]] = .error .IndexError := by decide +kernel
  have hv : validTest (⟨true, false, (5, 1), some [some "y"], [0, 1, 4, 5, 9]⟩ : TState Nat) demoTest = .ok () := by
    decide
  rw [hv]
  show (do
    let f ← formatAll demoBack 5 4 [[1, 2, 5, 0], [6, 1, 1, 0]]
    natural (fun a b => decide ((a : Nat) ≤ b)) [0, 1, 4, 5, 9] f) = _
  rw [this]
  rfl

/-- C77 violated: with label features one of which is called "bestScore" the mode 'bestScore' is refused. -/
theorem C77_best_name_violated [DecidableEq L] (le : L → L → Bool) (str : L → String) (s : TState L)
    (b : Backend X L) (t : Obj X) (hn : s.named = true) {names : List (Option String)} (hy : s.yNames = some names)
    (hb : some "bestScore" ∈ names) : ∀ o, apply le str s b t (some "bestScore") ≠ .ok o := by
  intro o h
  obtain ⟨-, -, h⟩ := apply_ok h
  replace h : applyBest le s b t = .ok o := h
  unfold applyBest at h
  simp only [bind, Except.bind] at h
  cases h1 : getScores le s b t with
  | error e => rw [h1] at h; cases h
  | ok sc =>
    rw [h1] at h
    dsimp only at h
    cases h2 : b.apply t with
    | error e => rw [h2] at h; cases h
    | ok p =>
      rw [h2] at h
      dsimp only at h
      split at h
      · cases h
      cases h3 : bestRows s.labels sc.2 p.2 with
      | error e => rw [h3] at h; cases h
      | ok rows =>
        rw [h3] at h
        dsimp only at h
        cases h4 : bestNames s (p.1 + 1) with
        | error e => rw [h4] at h; cases h
        | ok fts =>
          unfold bestNames at h4
          rw [hy] at h4
          dsimp only at h4
          unfold nameFts at h4
          rw [hn, if_pos rfl] at h4
          have := ((C02_setNames_list_accepts_iff _ _).1 ⟨_, h4⟩).2
          obtain ⟨i, hi⟩ := List.getElem?_of_mem hb
          have hlt : i < names.length := by
            rcases Nat.lt_or_ge i names.length with h | h
            · exact h
            · rw [List.getElem?_eq_none h] at hi; cases hi
          have e := this i names.length "bestScore" (by rw [List.getElem?_append_left hlt, hi]) (by simp)
          omega

/-- The order of the score features is right only because the interfaces give the labels in increasing order: for
labels in the order 2, 3, 1 the features would be moved the wrong way. -/
theorem unsorted_scores : natural (fun a b => decide ((a : Nat) ≤ b)) [2, 3, 1] (3, [[20, 30, 10]]) =
    .ok (3, [[30, 10, 20]]) := by
  have : ([2, 3, 1] : List Nat).mergeSort (fun a b => decide (a ≤ b)) = [1, 2, 3] := by
    simp [List.mergeSort, List.MergeSort.Internal.splitInTwo]
  unfold natural sortOrder
  rw [this]
  decide +kernel

end Nimble.Scores
