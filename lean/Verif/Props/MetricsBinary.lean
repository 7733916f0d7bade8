import Verif.Props.Metrics
import Mathlib.Tactic.FinCases

/-!
# C42: fraction correct and the binary metrics
-/

namespace Nimble

variable {V : Type} [DecidableEq V]

/-- The number of positions where the predicted value is the known one. -/
def agreements (known pred : List V) : Nat := ((known.zip pred).filter (fun kp => kp.1 = kp.2)).length

/-- The conditions under which a metric accepts its arguments. -/
structure MetricArgs (missing : V → Bool) (kO pO : Obj V) (known pred : List V) : Prop where
  oneK : OneFeature kO known
  oneP : OneFeature pO pred
  len : known.length = pred.length
  pos : 0 < known.length
  missK : ∀ v ∈ known, missing v = false
  missP : ∀ v ∈ pred, missing v = false

theorem perfCheck_ok {missing : V → Bool} {kO pO : Obj V} {known pred : List V}
    (h : MetricArgs missing kO pO known pred) : perfCheck missing kO pO = .ok () := by
  have := h.len
  have := h.pos
  have := h.oneK.npts
  have := h.oneP.npts
  have := h.oneK.nfts
  have := h.oneP.nfts
  have hm : ∀ (o : Obj V) (vals : List V), OneFeature o vals → (∀ v ∈ vals, missing v = false) →
      o.data.any (fun r => r.any missing) = false := by
    intro o vals ho hv
    rw [ho.data, List.any_eq_false]
    intro r hr
    obtain ⟨v, hv', rfl⟩ := List.mem_map.1 hr
    simp [hv v hv']
  unfold perfCheck
  rw [if_neg (by omega), if_neg (by omega), if_neg (by omega), if_neg (by omega),
    if_neg (by simp [hm _ _ h.oneK h.missK]), if_neg (by simp [hm _ _ h.oneP h.missP])]

theorem oneFeature_elem {o : Obj V} {vals : List V} (h : OneFeature o vals) (i : Nat) :
    o.elem? i 0 = vals[i]? := by
  unfold Obj.elem?
  rw [h.data, List.getElem?_map]
  cases vals[i]? <;> rfl

theorem errorLoop_count {kO pO : Obj V} {known pred : List V} (hk : OneFeature kO known)
    (hp : OneFeature pO pred) (hl : known.length = pred.length) :
    ∀ (n : Nat) (t : ℚ), n ≤ known.length →
      errorLoop (fun x y z => if x = y then z else z + 1) kO pO
          ((List.range known.length).drop (known.length - n)) t
        = t + (((known.zip pred).drop (known.length - n)).filter (fun kp => ¬ kp.1 = kp.2)).length
  | 0, t, _ => by
    rw [Nat.sub_zero, List.drop_eq_nil_of_le (by simp), List.drop_eq_nil_of_le (by simp)]
    simp [errorLoop]
  | n + 1, t, h => by
    have hi : known.length - (n + 1) < (List.range known.length).length := by simp; omega
    have hz : known.length - (n + 1) < (known.zip pred).length := by simp; omega
    have ih := errorLoop_count hk hp hl n
    rw [List.drop_eq_getElem_cons hi, List.drop_eq_getElem_cons hz,
      show known.length - (n + 1) + 1 = known.length - n by omega]
    unfold errorLoop
    simp only [List.getElem_range, List.getElem_zip]
    rw [oneFeature_elem hk, oneFeature_elem hp, List.getElem?_eq_getElem (by omega),
      List.getElem?_eq_getElem (by omega)]
    dsimp only
    rw [ih _ (by omega), List.filter_cons]
    by_cases e : known[known.length - (n + 1)] = pred[known.length - (n + 1)]'(by omega)
    · simp [e]
    · simp [e]; ring

theorem agree_add (l : List (V × V)) :
    (l.filter (fun kp => kp.1 = kp.2)).length + (l.filter (fun kp => ¬ kp.1 = kp.2)).length = l.length := by
  induction l with
  | nil => rfl
  | cons a l ih =>
    rw [List.filter_cons, List.filter_cons]
    by_cases e : a.1 = a.2
    · simp only [e, decide_true, if_true, not_true, decide_false, List.length_cons]
      simp at ih ⊢; omega
    · simp only [e, decide_false, not_false_iff, decide_true, if_true, List.length_cons]
      simp at ih ⊢; omega

/-- C42. `fractionCorrect` is the number of correct predictions divided by the number of predictions
and `fractionIncorrect` the rest; their sum is 1 and both are between 0 and 1. -/
theorem C42_fraction {missing : V → Bool} {kO pO : Obj V} {known pred : List V}
    (h : MetricArgs missing kO pO known pred) :
    fractionCorrect missing kO pO = .ok ((agreements known pred : ℚ) / known.length) ∧
    fractionIncorrect missing kO pO
      = .ok (((known.length - agreements known pred : Nat) : ℚ) / known.length) ∧
    (agreements known pred : ℚ) / known.length
      + ((known.length - agreements known pred : Nat) : ℚ) / known.length = 1 ∧
    0 ≤ (agreements known pred : ℚ) / known.length ∧ (agreements known pred : ℚ) / known.length ≤ 1 := by
  have hpos : (0 : ℚ) < known.length := by exact_mod_cast h.pos
  have ha : agreements known pred
      + ((known.zip pred).filter (fun kp => ¬ kp.1 = kp.2)).length = known.length := by
    unfold agreements
    rw [agree_add, List.length_zip, ← h.len, Nat.min_self]
  have hle : agreements known pred ≤ known.length := by omega
  have hinc : fractionIncorrect missing kO pO
      = .ok (((known.length - agreements known pred : Nat) : ℚ) / known.length) := by
    unfold fractionIncorrect
    simp only [bind, Except.bind, pure, Except.pure, perfCheck_ok h]
    have hloop := errorLoop_count h.oneK h.oneP h.len known.length 0 (le_refl _)
    rw [Nat.sub_self, List.drop_zero, List.drop_zero, zero_add] at hloop
    rw [h.oneP.npts, ← h.len, hloop, show ((known.zip pred).filter (fun kp => ¬ kp.1 = kp.2)).length
      = known.length - agreements known pred by omega]
  refine ⟨?_, hinc, ?_, by positivity, ?_⟩
  · unfold fractionCorrect
    simp only [bind, Except.bind, pure, Except.pure, hinc]
    rw [Nat.cast_sub hle]
    congr 1
    field_simp
    ring
  · rw [Nat.cast_sub hle]
    field_simp
    ring
  · rw [div_le_one hpos]
    exact_mod_cast hle

/-- C42. A performance function refuses empty objects, different numbers of points, several
features and missing values. -/
theorem C42_metric_refused (missing : V → Bool) (lv : LabelVals V) {kO pO : Obj V}
    (h : kO.pts.len = 0 ∨ kO.fts.len = 0 ∨ kO.pts.len ≠ pO.pts.len ∨ kO.fts.len ≠ pO.fts.len ∨
      1 < pO.fts.len ∨ (∃ r ∈ kO.data, ∃ v ∈ r, missing v = true) ∨
      (∃ r ∈ pO.data, ∃ v ∈ r, missing v = true)) (b : BinaryMetric) :
    ∃ e, (e = .InvalidArgumentValue ∨ e = .InvalidArgumentValueCombination) ∧
      fractionIncorrect missing kO pO = .error e ∧ fractionCorrect missing kO pO = .error e ∧
      binaryMetric missing lv kO pO b = .error e := by
  have : ∃ e, (e = .InvalidArgumentValue ∨ e = .InvalidArgumentValueCombination) ∧
      perfCheck missing kO pO = .error e := by
    unfold perfCheck
    by_cases h1 : kO.pts.len = 0 ∨ kO.fts.len = 0 ∨ pO.pts.len = 0 ∨ pO.fts.len = 0
    · rw [if_pos h1]; exact ⟨_, Or.inl rfl, rfl⟩
    rw [if_neg h1]
    by_cases h2 : kO.pts.len ≠ pO.pts.len
    · rw [if_pos h2]; exact ⟨_, Or.inr rfl, rfl⟩
    rw [if_neg h2]
    by_cases h3 : kO.fts.len ≠ pO.fts.len
    · rw [if_pos h3]; exact ⟨_, Or.inr rfl, rfl⟩
    rw [if_neg h3]
    by_cases h4 : pO.fts.len > 1
    · rw [if_pos h4]; exact ⟨_, Or.inl rfl, rfl⟩
    rw [if_neg h4]
    by_cases h5 : kO.data.any (fun r => r.any missing) = true
    · rw [if_pos h5]; exact ⟨_, Or.inl rfl, rfl⟩
    rw [if_neg h5]
    have h6 : pO.data.any (fun r => r.any missing) = true := by
      simp only [List.any_eq_true] at h5 ⊢
      rcases h with h | h | h | h | h | h | h
      · exact absurd (Or.inl h) h1
      · exact absurd (Or.inr (Or.inl h)) h1
      · exact absurd h h2
      · exact absurd h h3
      · exact absurd h h4
      · exact absurd h h5
      · exact h
    rw [if_pos h6]; exact ⟨_, Or.inl rfl, rfl⟩
  obtain ⟨e, he, hc⟩ := this
  refine ⟨e, he, ?_, ?_, ?_⟩
  · unfold fractionIncorrect; simp only [bind, Except.bind, hc]
  · unfold fractionCorrect fractionIncorrect; simp only [bind, Except.bind, hc]
  · unfold binaryMetric; simp only [bind, Except.bind, hc]

/-- C42. `fractionCorrect` is the sum of the diagonal of the confusion matrix of fractions. -/
theorem C42_fraction_is_diagonal {labels : List V} (hn : labels.Nodup) {str : V → String}
    {known pred : List V} {r : Obj ℚ} (h : IsConfusion labels str known pred known.length r)
    (hk : ∀ v ∈ known, v ∈ labels) :
    ((List.range labels.length).map (fun i => (r.elem? i i).getD 0)).sum
      = (agreements known pred : ℚ) / known.length := by
  have h1 : (List.range labels.length).map (fun i => (r.elem? i i).getD 0)
      = labels.map (fun v => ((known.zip pred).count (v, v) : ℚ) / known.length) := by
    apply List.ext_getElem?
    intro i
    rw [List.getElem?_map, List.getElem?_map]
    by_cases hi : i < labels.length
    · rw [List.getElem?_eq_getElem hi, List.getElem?_range hi]
      simp only [Option.map_some]
      rw [h.elem i i _ _ (List.getElem?_eq_getElem hi) (List.getElem?_eq_getElem hi)]
      rfl
    · rw [List.getElem?_eq_none (by simp; omega), List.getElem?_eq_none (by omega)]
      rfl
  rw [h1, cast_sum_div labels (fun v => (known.zip pred).count (v, v))]
  congr 2
  have hz : ∀ kp ∈ known.zip pred, kp.1 ∈ labels := fun kp hkp =>
    hk _ (List.of_mem_zip (a := kp.1) (b := kp.2) hkp).1
  have : ∀ (pairs : List (V × V)), (∀ kp ∈ pairs, kp.1 ∈ labels) →
      (labels.map (fun v => pairs.count (v, v))).sum = (pairs.filter (fun kp => kp.1 = kp.2)).length := by
    intro pairs
    induction pairs with
    | nil => simp
    | cons kp rest ih =>
      intro hh
      have hr := ih (fun x hx => hh x (by simp [hx]))
      have hc : ∀ v, (kp :: rest).count (v, v) = rest.count (v, v) + if kp = (v, v) then 1 else 0 := by
        intro v
        rw [List.count_cons]
        by_cases e : kp = (v, v) <;> simp [e]
      simp only [hc, List.sum_map_add, hr, List.filter_cons]
      by_cases e : kp.1 = kp.2
      · have : ∀ v, (if kp = (v, v) then 1 else 0) = if kp.1 = v then 1 else 0 := by
          intro v
          congr 1
          exact propext ⟨fun h => by rw [h], fun h => Prod.ext h (e ▸ h)⟩
        simp only [this]
        rw [sum_indicator hn (hh kp (by simp))]
        simp [e]
      · have : ∀ v, (if kp = (v, v) then 1 else 0) = 0 := by
          intro v
          rw [if_neg]
          intro hh; exact e (by rw [hh])
        simp [this, e]
  exact_mod_cast this _ hz

/-! ## Binary metrics -/

/-- Every value is 0 or 1 (False or True). -/
def Binary (lv : LabelVals V) (vals : List V) : Prop :=
  ∀ v ∈ vals, lv.badMod v = false ∧ (lv.toInt v = some 0 ∨ lv.toInt v = some 1)

/-- The textbook value: `a / b`, undefined when `b` is 0. -/
def ratio (a b : ℚ) : Option ℚ := if b = 0 then none else some (a / b)

theorem binaryMatrix_ok {lv : LabelVals V} {kO pO : Obj V} {known pred : List V}
    (hk : OneFeature kO known) (hp : OneFeature pO pred) (hl : known.length = pred.length)
    (hbk : Binary lv known) (hbp : Binary lv pred) :
    ∃ r, binaryMatrix lv kO pO = .ok r ∧
      r.data = [[(intHits lv known pred 0 0 : ℚ), intHits lv known pred 1 0],
        [(intHits lv known pred 0 1 : ℚ), intHits lv known pred 1 1]] := by
  obtain ⟨r, h1, _, _, h4, h5, h6, _⟩ := C42_confusion_list lv hk hp hl false (l := ["False", "True"])
    (by decide) (by
      intro v hv
      have : lv.badMod v = false ∧ (lv.toInt v = some 0 ∨ lv.toInt v = some 1) := by
        rcases hv with hv | hv
        · exact hbk v hv
        · exact hbp v hv
      refine ⟨this.1, ?_⟩
      rcases this.2 with h | h
      · exact ⟨0, by simp, h⟩
      · exact ⟨1, by simp, h⟩)
  refine ⟨r, ?_, ?_⟩
  · unfold binaryMatrix; rw [h1]
  · have e := fun i j hi hj => h6 i j hi hj
    simp only [cmDivisor, Bool.false_eq_true, if_false, div_one] at e
    have e00 := e 0 0 (by simp) (by simp)
    have e01 := e 0 1 (by simp) (by simp)
    have e10 := e 1 0 (by simp) (by simp)
    have e11 := e 1 1 (by simp) (by simp)
    match hd : r.data, h4 with
    | [a, b], _ =>
      have ha := h5 a (by rw [hd]; simp)
      have hb := h5 b (by rw [hd]; simp)
      match a, b, ha, hb with
      | [a0, a1], [b0, b1], _, _ =>
        unfold Obj.elem? at e00 e01 e10 e11
        rw [hd] at e00 e01 e10 e11
        simp at e00 e01 e10 e11
        simp [e00, e01, e10, e11]

/-- C42. For values 0 and 1 the binary metrics are the textbook ones, from the numbers of true
positives, true negatives, false positives and false negatives; a quotient whose divisor is 0 is
undefined (an error or a missing value).  `f1Score` is also undefined when there is no true positive,
where the textbook value `2 tp / (2 tp + fp + fn)` may be 0. -/
theorem C42_binary_metrics {missing : V → Bool} (lv : LabelVals V) {kO pO : Obj V} {known pred : List V}
    (h : MetricArgs missing kO pO known pred) (hbk : Binary lv known) (hbp : Binary lv pred)
    {tp tn fp fn : ℚ} (htp : tp = intHits lv known pred 1 1) (htn : tn = intHits lv known pred 0 0)
    (hfp : fp = intHits lv known pred 0 1) (hfn : fn = intHits lv known pred 1 0) :
    binaryMetric missing lv kO pO .truePositive = .ok (some tp) ∧
    binaryMetric missing lv kO pO .trueNegative = .ok (some tn) ∧
    binaryMetric missing lv kO pO .falsePositive = .ok (some fp) ∧
    binaryMetric missing lv kO pO .falseNegative = .ok (some fn) ∧
    binaryMetric missing lv kO pO .recall = .ok (ratio tp (tp + fn)) ∧
    binaryMetric missing lv kO pO .precision = .ok (ratio tp (tp + fp)) ∧
    binaryMetric missing lv kO pO .specificity = .ok (ratio tn (tn + fp)) ∧
    binaryMetric missing lv kO pO .balancedAccuracy
      = .ok (if tp + fn = 0 ∨ tn + fp = 0 then none
          else some ((tp / (tp + fn) + tn / (tn + fp)) / 2)) ∧
    binaryMetric missing lv kO pO .f1Score
      = .ok (if tp = 0 then none else some (2 * tp / (2 * tp + fp + fn))) := by
  obtain ⟨r, h1, h2⟩ := binaryMatrix_ok h.oneK h.oneP h.len hbk hbp
  rw [← htp, ← htn, ← hfp, ← hfn] at h2
  have p1 : 0 ≤ tp := by rw [htp]; positivity
  have p2 : 0 ≤ tn := by rw [htn]; positivity
  have p3 : 0 ≤ fp := by rw [hfp]; positivity
  have p4 : 0 ≤ fn := by rw [hfn]; positivity
  have hm : ∀ b, binaryMetric missing lv kO pO b = .ok (b.ofMatrix r) := by
    intro b
    unfold binaryMetric
    simp only [bind, Except.bind, pure, Except.pure, perfCheck_ok h, h1]
  have c00 : cmCell r 0 0 = tn := by unfold cmCell Obj.elem?; rw [h2]; simp
  have c01 : cmCell r 0 1 = fn := by unfold cmCell Obj.elem?; rw [h2]; simp
  have c10 : cmCell r 1 0 = fp := by unfold cmCell Obj.elem?; rw [h2]; simp
  have c11 : cmCell r 1 1 = tp := by unfold cmCell Obj.elem?; rw [h2]; simp
  have k1 : cmKnown r 1 = tp + fn := by
    unfold cmKnown Obj.vector; rw [h2]; simp; ring
  have k0 : cmKnown r 0 = tn + fp := by
    unfold cmKnown Obj.vector; rw [h2]; simp
  have q1 : cmPredicted r 1 = tp + fp := by
    unfold cmPredicted Obj.vector; rw [h2]; simp; ring
  have hR : cmRecall r = ratio tp (tp + fn) := by unfold cmRecall; rw [c11, k1]; rfl
  have hP : cmPrecision r = ratio tp (tp + fp) := by unfold cmPrecision; rw [c11, q1]; rfl
  have hS : cmSpecificity r = ratio tn (tn + fp) := by unfold cmSpecificity; rw [c00, k0]; rfl
  simp only [hm, BinaryMetric.ofMatrix, c00, c01, c10, c11, hR, hP, hS, cmBalanced, cmF1]
  refine ⟨trivial, trivial, trivial, trivial, trivial, trivial, trivial, ?_, ?_⟩
  · unfold ratio
    by_cases e1 : tp + fn = 0
    · simp [e1]
    · by_cases e2 : tn + fp = 0
      · simp [e2]
      · simp [e1, e2]
  · unfold ratio
    by_cases e0 : tp = 0
    · rw [if_pos e0]
      by_cases e1 : tp + fn = 0
      · simp [e1]
      · by_cases e2 : tp + fp = 0
        · simp [e2]
        · simp [e0, pyDiv]
    · have ht : 0 < tp := lt_of_le_of_ne p1 (Ne.symm e0)
      have e1 : tp + fn ≠ 0 := by linarith [ht] |> fun (h : 0 < tp + fn) => h.ne'
      have e2 : tp + fp ≠ 0 := by linarith [ht] |> fun (h : 0 < tp + fp) => h.ne'
      have e3 : tp / (tp + fp) + tp / (tp + fn) ≠ 0 := by positivity
      have e4 : 2 * tp + fp + fn ≠ 0 := by positivity
      rw [if_neg e0, if_neg e1, if_neg e2]
      simp only [Option.bind_eq_bind, Option.bind_some, pyDiv, e3, if_false, Option.pure_def]
      congr 2
      field_simp
      ring

/-- C42. The four counts add up to the number of predictions. -/
theorem C42_binary_counts (lv : LabelVals V) {known pred : List V} (hl : known.length = pred.length)
    (hbk : Binary lv known) (hbp : Binary lv pred) :
    intHits lv known pred 1 1 + intHits lv known pred 0 0 + intHits lv known pred 0 1
      + intHits lv known pred 1 0 = known.length := by
  have : ∀ pairs : List (V × V),
      (∀ kp ∈ pairs, (lv.toInt kp.1 = some 0 ∨ lv.toInt kp.1 = some 1) ∧
        (lv.toInt kp.2 = some 0 ∨ lv.toInt kp.2 = some 1)) →
      (pairs.filter (fun kp => decide (lv.toInt kp.1 = some 1 ∧ lv.toInt kp.2 = some 1))).length
        + (pairs.filter (fun kp => decide (lv.toInt kp.1 = some 0 ∧ lv.toInt kp.2 = some 0))).length
        + (pairs.filter (fun kp => decide (lv.toInt kp.1 = some 0 ∧ lv.toInt kp.2 = some 1))).length
        + (pairs.filter (fun kp => decide (lv.toInt kp.1 = some 1 ∧ lv.toInt kp.2 = some 0))).length
        = pairs.length := by
    intro pairs
    induction pairs with
    | nil => intro _; rfl
    | cons kp rest ih =>
      intro h
      have hr := ih (fun x hx => h x (by simp [hx]))
      obtain ⟨h1, h2⟩ := h kp (by simp)
      simp only [List.filter_cons]
      rcases h1 with h1 | h1 <;> rcases h2 with h2 | h2 <;> simp [h1, h2] at hr ⊢ <;> omega
  have h := this (known.zip pred) (by
    intro kp hkp
    have hm := List.of_mem_zip (a := kp.1) (b := kp.2) hkp
    exact ⟨(hbk _ hm.1).2, (hbp _ hm.2).2⟩)
  rw [List.length_zip, ← hl, Nat.min_self] at h
  exact h

/-- C42. Recall, precision, specificity, balanced accuracy and F1 are between 0 and 1 when they are
defined. -/
theorem C42_binary_range {missing : V → Bool} (lv : LabelVals V) {kO pO : Obj V} {known pred : List V}
    (h : MetricArgs missing kO pO known pred) (hbk : Binary lv known) (hbp : Binary lv pred)
    {b : BinaryMetric} (hb : b = .recall ∨ b = .precision ∨ b = .specificity ∨ b = .balancedAccuracy ∨
      b = .f1Score) {q : ℚ} (hq : binaryMetric missing lv kO pO b = .ok (some q)) : 0 ≤ q ∧ q ≤ 1 := by
  obtain ⟨_, _, _, _, h5, h6, h7, h8, h9⟩ := C42_binary_metrics lv h hbk hbp rfl rfl rfl rfl
  have r : ∀ a c : ℚ, 0 ≤ a → 0 ≤ c → a + c ≠ 0 → 0 ≤ a / (a + c) ∧ a / (a + c) ≤ 1 := by
    intro a c ha hc h0
    have : 0 < a + c := lt_of_le_of_ne (by positivity) (Ne.symm h0)
    refine ⟨by positivity, ?_⟩
    rw [div_le_one this]; linarith
  have hr : ∀ a c : ℚ, 0 ≤ a → 0 ≤ c → ratio a (a + c) = some q → 0 ≤ q ∧ q ≤ 1 := by
    intro a c ha hc he
    unfold ratio at he
    by_cases h0 : a + c = 0
    · simp [h0] at he
    · rw [if_neg h0] at he
      obtain rfl := Option.some.inj he
      exact r a c ha hc h0
  have p1 : (0 : ℚ) ≤ intHits lv known pred 1 1 := by positivity
  have p2 : (0 : ℚ) ≤ intHits lv known pred 0 0 := by positivity
  have p3 : (0 : ℚ) ≤ intHits lv known pred 0 1 := by positivity
  have p4 : (0 : ℚ) ≤ intHits lv known pred 1 0 := by positivity
  rcases hb with rfl | rfl | rfl | rfl | rfl
  · rw [h5] at hq
    exact hr _ _ p1 p4 (Except.ok.inj hq)
  · rw [h6] at hq
    exact hr _ _ p1 p3 (Except.ok.inj hq)
  · rw [h7] at hq
    exact hr _ _ p2 p3 (Except.ok.inj hq)
  · rw [h8] at hq
    have hq' := Except.ok.inj hq
    split at hq'
    · cases hq'
    · rename_i hne
      obtain rfl := Option.some.inj hq'
      have a1 := r _ _ p1 p4 (fun e => hne (Or.inl e))
      have a2 := r _ _ p2 p3 (fun e => hne (Or.inr e))
      constructor <;> linarith [a1.1, a1.2, a2.1, a2.2]
  · rw [h9] at hq
    have hq' := Except.ok.inj hq
    split at hq'
    · cases hq'
    · rename_i hne
      obtain rfl := Option.some.inj hq'
      have hpos : (0 : ℚ) < intHits lv known pred 1 1 := lt_of_le_of_ne p1 (Ne.symm hne)
      refine ⟨by positivity, ?_⟩
      rw [div_le_one (by positivity)]
      linarith

/-- C42. A value other than 0 and 1 is refused by the binary metrics. -/
theorem C42_binary_refused {missing : V → Bool} (lv : LabelVals V) {kO pO : Obj V} {known pred : List V}
    (h : MetricArgs missing kO pO known pred) (hmod : ∀ v, v ∈ known ∨ v ∈ pred → lv.badMod v = false)
    {v : V} (hv : v ∈ known ∨ v ∈ pred) (h0 : lv.toInt v ≠ some 0) (h1 : lv.toInt v ≠ some 1)
    (b : BinaryMetric) : binaryMetric missing lv kO pO b = .error .InvalidArgumentValue := by
  obtain ⟨e, he, he2⟩ := C42_confusion_list_refused lv h.oneK h.oneP h.len false
    (l := ["False", "True"]) hv (by
      rintro ⟨_, k, hk, hk2⟩
      simp at hk
      have : k = 0 ∨ k = 1 := by omega
      rcases this with rfl | rfl
      · exact h0 hk2
      · exact h1 hk2)
  have : binaryMatrix lv kO pO = .error .InvalidArgumentValue := by
    unfold binaryMatrix
    rw [he]
    rcases he2 with rfl | rfl | ⟨rfl, w, hw, hw2⟩
    · rfl
    · rfl
    · rw [hmod w hw] at hw2; cases hw2
  unfold binaryMetric
  simp only [bind, Except.bind, perfCheck_ok h, this]

/-! ## Concrete cases -/

/-- Labels for the examples: integers. -/
def intLabels : LabelVals Int := ⟨some, fun _ => false, toString, fun a b => decide (a ≤ b)⟩

/-- An object with one feature. -/
def oneCol {A : Type} (vals : List A) : Obj A := ⟨vals.map (fun v => [v]), ⟨vals.length, none⟩, ⟨1, none⟩⟩

theorem oneCol_ok (vals : List V) : OneFeature (oneCol vals) vals := ⟨rfl, rfl, rfl⟩

example : SortOrd intLabels.le :=
  ⟨fun a b => by simp [intLabels]; omega, fun a b c => by simp [intLabels]; omega⟩

example : MetricArgs (fun _ => false) (oneCol [1, 0, 1, 1, 0]) (oneCol [1, 1, 0, 1, 0]) [1, 0, 1, 1, 0]
    ([1, 1, 0, 1, 0] : List Int) ∧ Binary intLabels [1, 0, 1, 1, 0] ∧ Binary intLabels [1, 1, 0, 1, 0] := by
  refine ⟨⟨oneCol_ok _, oneCol_ok _, rfl, by decide, by decide, by decide⟩, ?_, ?_⟩ <;>
    intro v hv <;> fin_cases hv <;> simp [intLabels]

example : intHits intLabels [1, 0, 1, 1, 0] [1, 1, 0, 1, 0] 1 1 = 2 ∧
    intHits intLabels [1, 0, 1, 1, 0] [1, 1, 0, 1, 0] 0 1 = 1 := by decide

example : (confusionMatrix intLabels (oneCol [2, 0, 2, 5]) (oneCol [2, 2, 0, 5]) .none false).map Obj.data
    = .ok [[0, 1, 0], [1, 1, 0], [0, 0, 1]] := by decide +kernel

example : (confusionMatrix intLabels (oneCol [0, 0, 1]) (oneCol [0, 1, 1]) (.dict [(1, "b"), (0, "a")])
    true).map Obj.data = .ok [[1/3, 0], [1/3, 1/3]] := by decide +kernel

/-- C42 violated. Three known labels 0, 1 and a prediction 2 never seen: no matrix. -/
theorem C42_unseen_witness_violated :
    confusionMatrix intLabels (oneCol [0, 1, 1]) (oneCol [0, 1, 2]) .none false = .error .ValueError :=
  C42_confusion_unseen_violated intLabels (known := [0, 1, 1]) (pred := [0, 1, 2]) (oneCol_ok _)
    (oneCol_ok _) rfl false (v := 2) (by decide) (by decide)

/-- Labels which are strings of the kind `'<50%'`: a single percent sign at the end is an incomplete
format in Python, `'<50%' % 1` raises `ValueError: incomplete format`. -/
def strLabels : LabelVals String :=
  ⟨fun _ => none, fun s => decide (s.toList.getLast? = some '%' ∧ s.toList.count '%' = 1), id,
    fun a b => decide (a ≤ b)⟩

/-- C42 violated. A perfect prediction of the labels '<50%' and 'more'. -/
theorem C42_percent_witness_violated :
    confusionMatrix strLabels (oneCol ["<50%", "more"]) (oneCol ["<50%", "more"]) .none false
      = .error .ValueError :=
  C42_confusion_percent_violated strLabels (known := ["<50%", "more"]) (pred := ["<50%", "more"])
    (oneCol_ok _) (oneCol_ok _) rfl false (v := "<50%") (by decide) (by decide)

/-- C42 violated. Both classes are known and predicted, no positive is found: recall and precision are
0, and the textbook F1 score `2 tp / (2 tp + fp + fn)` is 0, but `f1Score` is undefined. -/
theorem C42_f1_zero_violated :
    binaryMetric (fun _ => false) intLabels (oneCol [1, 0]) (oneCol [0, 1]) .recall = .ok (some 0) ∧
    binaryMetric (fun _ => false) intLabels (oneCol [1, 0]) (oneCol [0, 1]) .precision = .ok (some 0) ∧
    binaryMetric (fun _ => false) intLabels (oneCol [1, 0]) (oneCol [0, 1]) .f1Score = .ok none := by
  decide +kernel

end Nimble
