import Verif.Lemmas.Metrics
import Mathlib.Tactic.Linarith
import Mathlib.Tactic.FieldSimp
import Mathlib.Tactic.Positivity
import Mathlib.Tactic.Ring
import Mathlib.Algebra.Order.Field.Basic
import Mathlib.Data.Rat.Cast.Order

/-!
# C42: the confusion matrix and the metrics based on it
-/

namespace Nimble

variable {V : Type} [DecidableEq V]

/-! ## Specification -/

/-- An object with one feature showing the given values. -/
structure OneFeature (o : Obj V) (vals : List V) : Prop where
  npts : o.pts.len = vals.length
  nfts : o.fts.len = 1
  data : o.data = vals.map (fun v => [v])

/-- The confusion matrix of `known` and `pred` for the given labels, called `str`: the element at
the point of label `p` and the feature of label `k` is the number of positions where `k` is known and
`p` predicted (divided by `d`). -/
structure IsConfusion (labels : List V) (str : V → String) (known pred : List V) (d : ℚ) (r : Obj ℚ) :
    Prop where
  npts : r.pts.len = labels.length
  nfts : r.fts.len = labels.length
  rows : r.data.length = labels.length
  cols : ∀ row ∈ r.data, row.length = labels.length
  elem : ∀ i j p k, labels[i]? = some p → labels[j]? = some k →
    r.elem? i j = some (((known.zip pred).count (k, p) : ℚ) / d)
  ptNames : r.pts.getNames = labels.map (fun l => some ("predicted_" ++ str l))
  ftNames : r.fts.getNames = labels.map (fun l => some ("known_" ++ str l))

/-! ## Proofs -/

theorem flatten_singletons (vals : List V) : (vals.map (fun v => [v])).flatten = vals := by
  induction vals with
  | nil => rfl
  | cons a l ih => simp [ih]

theorem prefix_nodup {labels : List V} (hn : labels.Nodup) {str : V → String} (pre : String)
    (hs : ∀ a ∈ labels, ∀ b ∈ labels, str a = str b → a = b) :
    (labels.map (fun l => some (pre ++ str l))).reduceOption.Nodup := by
  have : (labels.map (fun l => some (pre ++ str l))).reduceOption = labels.map (fun l => pre ++ str l) := by
    unfold List.reduceOption
    rw [List.filterMap_map]
    induction labels with
    | nil => rfl
    | cons a l ih => simp
  rw [this]
  refine List.Nodup.map_on ?_ hn
  intro a ha b hb e
  exact hs a ha b hb (by simpa using e)

theorem make_confusion {labels : List V} (hn : labels.Nodup) {str : V → String}
    (hs : ∀ a ∈ labels, ∀ b ∈ labels, str a = str b → a = b) {known pred : List V}
    {m : List (List Nat)} (hm : CmShape labels.length m)
    (hc : ∀ i j k p, labels[j]? = some k → labels[i]? = some p →
      cellN m i j = (known.zip pred).count (k, p)) (f : Nat → ℚ) {d : ℚ} (hf : ∀ x : Nat, f x = (x : ℚ) / d) :
    ∃ r, Obj.make (m.map (fun r => r.map f)) (labels.map str).length (labels.map str).length
      (some ((labels.map str).map (fun s => some ("predicted_" ++ s))))
      (some ((labels.map str).map (fun s => some ("known_" ++ s)))) = .ok r ∧
      IsConfusion labels str known pred d r := by
  have h1 := init_some_ok (n := (labels.map str).length)
    (l := (labels.map str).map (fun s => some ("predicted_" ++ s))) (by simp)
    (by rw [List.map_map]; exact prefix_nodup hn "predicted_" hs)
  have h2 := init_some_ok (n := (labels.map str).length)
    (l := (labels.map str).map (fun s => some ("known_" ++ s))) (by simp)
    (by rw [List.map_map]; exact prefix_nodup hn "known_" hs)
  refine ⟨⟨m.map (fun r => r.map f),
    ⟨(labels.map str).length, some ⟨namedPairs 0 ((labels.map str).map (fun s => some ("predicted_" ++ s))),
      (labels.map str).map (fun s => some ("predicted_" ++ s))⟩⟩,
    ⟨(labels.map str).length, some ⟨namedPairs 0 ((labels.map str).map (fun s => some ("known_" ++ s))),
      (labels.map str).map (fun s => some ("known_" ++ s))⟩⟩⟩, ?_, ?_⟩
  · unfold Obj.make
    simp only [bind, Except.bind, pure, Except.pure, h1, h2]
  · constructor
    · simp
    · simp
    · simp [hm.rows]
    · intro row hr
      obtain ⟨x, hx, rfl⟩ := List.mem_map.1 hr
      simp [hm.cols x hx]
    · intro i j p k hi hj
      have hc' := hc i j k p hj hi
      unfold Obj.elem?
      dsimp only
      rw [List.getElem?_map]
      have hil : i < m.length := by rw [hm.rows]; exact (List.getElem?_eq_some_iff.1 hi).1
      have hjl : j < m[i].length := by
        rw [hm.cols _ (List.getElem_mem hil)]; exact (List.getElem?_eq_some_iff.1 hj).1
      unfold cellN at hc'
      rw [List.getElem?_eq_getElem hil] at hc' ⊢
      simp only [Option.map_some, Option.bind_some] at hc' ⊢
      rw [List.getElem?_map]
      rw [List.getElem?_eq_getElem hjl] at hc' ⊢
      simp only [Option.getD_some] at hc'
      simp only [Option.map_some, hc', hf]
    · show ((labels.map str).map _) = _
      rw [List.map_map]; rfl
    · show ((labels.map str).map _) = _
      rw [List.map_map]; rfl

/-- What `sorted` needs. -/
structure SortOrd (le : V → V → Bool) : Prop where
  total : ∀ a b, le a b = true ∨ le b a = true
  trans : ∀ a b c, le a b = true → le b c = true → le a c = true

theorem pySorted_sorted {le : V → V → Bool} (h : SortOrd le) (l : List V) :
    (pySorted le l).Pairwise (fun a b => le a b = true) := by
  unfold pySorted
  haveI : Std.Total (fun a b : V => le a b = true) := ⟨h.total⟩
  haveI : IsTrans V (fun a b => le a b = true) := ⟨h.trans⟩
  exact List.pairwise_insertionSort _ l

theorem pySorted_perm (le : V → V → Bool) (l : List V) : (pySorted le l).Perm l :=
  List.perm_insertionSort _ l

/-- The divisor used by `confusionMatrix`. -/
def cmDivisor (frac : Bool) (n : Nat) : ℚ := if frac then n else 1

theorem cm_value (frac : Bool) (n x : Nat) : cmValue frac n x = (x : ℚ) / cmDivisor frac n := by
  unfold cmDivisor cmValue
  cases frac <;> simp

theorem cm_front (lv : LabelVals V) {kO pO : Obj V} {known pred : List V} (hk : OneFeature kO known)
    (hp : OneFeature pO pred) (hl : known.length = pred.length) (la : LabelArg V) (frac : Bool) :
    confusionMatrix lv kO pO la frac = (do
      let c ← cmCounts lv known pred la
      Obj.make (c.1.map (fun r => r.map (cmValue frac known.length)))
        c.2.length c.2.length (some (c.2.map (fun s => some ("predicted_" ++ s))))
        (some (c.2.map (fun s => some ("known_" ++ s))))) := by
  unfold confusionMatrix
  rw [if_neg (by simp [hk.nfts, hp.nfts]), if_neg (by simp [hk.npts, hp.npts, hl]), hk.data, hp.data,
    flatten_singletons, flatten_singletons, hk.npts]

/-- C42. Without `labels`: when every predicted value occurs among the known values, the matrix has
one point and one feature for each value, in sorted order, and counts each pair. -/
theorem C42_confusion_no_labels_partial (lv : LabelVals V) (hle : SortOrd lv.le) {kO pO : Obj V}
    {known pred : List V} (hk : OneFeature kO known) (hp : OneFeature pO pred)
    (hl : known.length = pred.length) (frac : Bool)
    (hsub : ∀ v ∈ pred, v ∈ known) (hmod : ∀ v ∈ known, lv.badMod v = false)
    (hstr : ∀ a ∈ known, ∀ b ∈ known, lv.str a = lv.str b → a = b) :
    ∃ labels r, confusionMatrix lv kO pO .none frac = .ok r ∧
      labels.Nodup ∧ (∀ v, v ∈ labels ↔ v ∈ known) ∧ labels.Pairwise (fun a b => lv.le a b = true) ∧
      IsConfusion labels lv.str known pred (cmDivisor frac known.length) r := by
  have hperm := pySorted_perm lv.le known.dedup
  have hn : (pySorted lv.le known.dedup).Nodup := hperm.nodup_iff.2 (List.nodup_dedup known)
  have hmem : ∀ v, v ∈ pySorted lv.le known.dedup ↔ v ∈ known := fun v => by
    rw [hperm.mem_iff, List.mem_dedup]
  obtain ⟨m, h1, h2, h3⟩ := fillCounts_ok hn (countPairs [] (known.zip pred)) (cmZeros _)
    (cmZeros_shape _) (countPairs_nodup _ _ (by simp)) (by
      intro e he
      have := List.of_mem_zip (a := e.1.1) (b := e.1.2) (countPairs_mem he)
      exact ⟨(hmem _).2 this.1, (hmem _).2 (hsub _ this.2)⟩)
  obtain ⟨r, h4, h5⟩ := make_confusion hn (str := lv.str)
    (fun a ha b hb => hstr a ((hmem a).1 ha) b ((hmem b).1 hb)) (known := known) (pred := pred) h2 (by
      intro i j k p hj hi
      rw [h3 i j k p hj hi, countPairs_get?, cmZeros_cell]
      by_cases hc : (known.zip pred).count (k, p) = 0
      · simp [hc]
      · simp [hc]) (cmValue frac known.length) (cm_value frac known.length)
  refine ⟨_, r, ?_, hn, hmem, pySorted_sorted hle _, h5⟩
  rw [cm_front lv hk hp hl]
  simp only [cmCounts]
  unfold cmNoLabels
  have : known.any lv.badMod = false := by
    rw [List.any_eq_false]; intro v hv; simp [hmod v hv]
  rw [this]
  simp only [bind, Except.bind, pure, Except.pure, Bool.false_eq_true, if_false, h1]
  exact h4

/-- C42 violated. Without `labels`, one predicted value which is not among the known values makes
the function fail with a `ValueError`: that prediction is not counted. -/
theorem C42_confusion_unseen_violated (lv : LabelVals V) {kO pO : Obj V} {known pred : List V}
    (hk : OneFeature kO known) (hp : OneFeature pO pred) (hl : known.length = pred.length) (frac : Bool)
    {v : V} (hv : v ∈ pred) (hno : v ∉ known) :
    confusionMatrix lv kO pO .none frac = .error .ValueError := by
  rw [cm_front lv hk hp hl]
  simp only [cmCounts]
  unfold cmNoLabels
  split
  · rfl
  · obtain ⟨i, hi⟩ := List.mem_iff_getElem?.1 hv
    have hil := (List.getElem?_eq_some_iff.1 hi).1
    have hz : (known[i]'(by omega), v) ∈ known.zip pred := by
      apply List.mem_iff_getElem?.2
      refine ⟨i, ?_⟩
      rw [List.getElem?_zip_eq_some]
      exact ⟨List.getElem?_eq_getElem (by omega), hi⟩
    obtain ⟨e, he, he2⟩ := countPairs_has hz
    have := fillCounts_missing (labels := pySorted lv.le known.dedup) (countPairs [] (known.zip pred))
      (cmZeros (pySorted lv.le known.dedup).length) ⟨e, he, Or.inr (by
        rw [he2, (pySorted_perm lv.le known.dedup).mem_iff, List.mem_dedup]; exact hno)⟩
    simp only [bind, Except.bind, pure, Except.pure, this]

/-- C42 violated. A known label for which `label % 1` raises a `ValueError`, such as the string
`'50%'`, makes the function fail. -/
theorem C42_confusion_percent_violated (lv : LabelVals V) {kO pO : Obj V} {known pred : List V}
    (hk : OneFeature kO known) (hp : OneFeature pO pred) (hl : known.length = pred.length) (frac : Bool)
    {v : V} (hv : v ∈ known) (hbad : lv.badMod v = true) :
    confusionMatrix lv kO pO .none frac = .error .ValueError := by
  rw [cm_front lv hk hp hl]
  simp only [cmCounts]
  unfold cmNoLabels
  rw [if_pos (by rw [List.any_eq_true]; exact ⟨v, hv, hbad⟩)]
  rfl

/-- C42. With a dict: every value must be a key (else a `KeyError`); the matrix has one point and one
feature for each key, in sorted order, named by the labels of the dict. -/
theorem C42_confusion_dict (lv : LabelVals V) (hle : SortOrd lv.le) {kO pO : Obj V}
    {known pred : List V} (hk : OneFeature kO known) (hp : OneFeature pO pred)
    (hl : known.length = pred.length) (frac : Bool) {d : PyDict V String} (hd : (PyDict.keys d).Nodup)
    (hinj : ∀ a b s, PyDict.get? d a = some s → PyDict.get? d b = some s → a = b) :
    ((∀ v, v ∈ known ∨ v ∈ pred → ∃ s, PyDict.get? d v = some s) →
      ∃ keys r, confusionMatrix lv kO pO (.dict d) frac = .ok r ∧
        keys.Nodup ∧ (∀ v, v ∈ keys ↔ ∃ s, PyDict.get? d v = some s) ∧
        keys.Pairwise (fun a b => lv.le a b = true) ∧
        IsConfusion keys (fun k => (PyDict.get? d k).getD "") known pred
          (cmDivisor frac known.length) r) ∧
    ((∃ v, (v ∈ known ∨ v ∈ pred) ∧ PyDict.get? d v = none) →
      confusionMatrix lv kO pO (.dict d) frac = .error .KeyError) := by
  have hperm := pySorted_perm lv.le (PyDict.keys d)
  have hn : (pySorted lv.le (PyDict.keys d)).Nodup := hperm.nodup_iff.2 hd
  have hmem : ∀ v, v ∈ pySorted lv.le (PyDict.keys d) ↔ ∃ s, PyDict.get? d v = some s := fun v => by
    rw [hperm.mem_iff, PyDict.mem_keys, Option.isSome_iff_exists]
  constructor
  · intro h
    obtain ⟨m, h1, h2, h3⟩ := fillDict_ok hn (known.zip pred) (cmZeros _) (cmZeros_shape _) (by
      intro kp hkp
      have := List.of_mem_zip (a := kp.1) (b := kp.2) hkp
      exact ⟨(hmem _).2 (h _ (Or.inl this.1)), (hmem _).2 (h _ (Or.inr this.2))⟩)
    obtain ⟨r, h4, h5⟩ := make_confusion hn (str := fun k => (PyDict.get? d k).getD "")
      (by
        intro a ha b hb e
        obtain ⟨s, hs⟩ := (hmem a).1 ha
        obtain ⟨t, ht⟩ := (hmem b).1 hb
        simp only [hs, ht, Option.getD_some] at e
        subst e
        exact hinj a b s hs ht) (known := known) (pred := pred) h2 (by
        intro i j k p hj hi
        rw [h3 i j k p hj hi, cmZeros_cell, Nat.zero_add])
      (cmValue frac known.length) (cm_value frac known.length)
    refine ⟨_, r, ?_, hn, hmem, pySorted_sorted hle _, h5⟩
    rw [cm_front lv hk hp hl]
    unfold cmCounts
    simp only [bind, Except.bind, pure, Except.pure, h1]
    exact h4
  · rintro ⟨v, hv, hno⟩
    have hnk : v ∉ pySorted lv.le (PyDict.keys d) := by
      rw [hmem]; rintro ⟨s, hs⟩; rw [hno] at hs; cases hs
    rw [cm_front lv hk hp hl]
    unfold cmCounts
    have := fillDict_missing (keys := pySorted lv.le (PyDict.keys d)) (known.zip pred)
      (cmZeros (pySorted lv.le (PyDict.keys d)).length) (by
        rcases hv with hv | hv
        · obtain ⟨i, hi⟩ := List.mem_iff_getElem?.1 hv
          have hil := (List.getElem?_eq_some_iff.1 hi).1
          refine ⟨(v, pred[i]'(by omega)), ?_, Or.inl hnk⟩
          apply List.mem_iff_getElem?.2
          exact ⟨i, List.getElem?_zip_eq_some.2 ⟨hi, List.getElem?_eq_getElem (by omega)⟩⟩
        · obtain ⟨i, hi⟩ := List.mem_iff_getElem?.1 hv
          have hil := (List.getElem?_eq_some_iff.1 hi).1
          refine ⟨(known[i]'(by omega), v), ?_, Or.inr hnk⟩
          apply List.mem_iff_getElem?.2
          exact ⟨i, List.getElem?_zip_eq_some.2 ⟨List.getElem?_eq_getElem (by omega), hi⟩⟩)
    simp only [bind, Except.bind, pure, Except.pure, this]

/-! ### Labels given as a list -/

/-- The number of positions where the known value is the integer `a` and the predicted one `b`. -/
def intHits (lv : LabelVals V) (known pred : List V) (a b : Int) : Nat :=
  ((known.zip pred).filter (fun kp => decide (lv.toInt kp.1 = some a ∧ lv.toInt kp.2 = some b))).length

/-- The value is one of the integers `0 … n-1` (and not a string which cannot be formatted). -/
def IndexVal (lv : LabelVals V) (n : Nat) (v : V) : Prop :=
  lv.badMod v = false ∧ ∃ k : Nat, k < n ∧ lv.toInt v = some (k : Int)

theorem labelIndex_ok {lv : LabelVals V} {n : Nat} {v : V} (h : IndexVal lv n v) :
    labelIndex lv n v = .ok ((lv.toInt v).getD 0).toNat ∧ ((lv.toInt v).getD 0).toNat < n := by
  obtain ⟨h1, k, hk, h2⟩ := h
  unfold labelIndex
  simp only [h1, Bool.false_eq_true, if_false, h2, Option.getD_some, Int.toNat_natCast]
  rw [if_pos ⟨by omega, by omega⟩]
  exact ⟨rfl, hk⟩

theorem labelIndex_bad {lv : LabelVals V} {n : Nat} {v : V} (h : ¬ IndexVal lv n v) :
    ∃ e, labelIndex lv n v = .error e ∧
      (e = .IndexError ∨ e = .InvalidArgumentValue ∨ (e = .ValueError ∧ lv.badMod v = true)) := by
  unfold labelIndex
  cases hb : lv.badMod v with
  | true => exact ⟨_, rfl, by simp⟩
  | false =>
    simp only [Bool.false_eq_true, if_false]
    cases hi : lv.toInt v with
    | none => exact ⟨_, rfl, by simp⟩
    | some k =>
      dsimp only
      rw [if_neg]
      · exact ⟨_, rfl, by simp⟩
      · intro hk
        apply h
        exact ⟨hb, k.toNat, by omega, by rw [hi]; simp; omega⟩

theorem fillList_bad {lv : LabelVals V} {n : Nat} : ∀ (pairs : List (V × V)) (m : List (List Nat)),
    (∃ kp ∈ pairs, ¬ IndexVal lv n kp.1 ∨ ¬ IndexVal lv n kp.2) →
    ∃ e, fillList lv n pairs m = .error e ∧ (e = .IndexError ∨ e = .InvalidArgumentValue ∨
      (e = .ValueError ∧ ∃ kp ∈ pairs, lv.badMod kp.1 = true ∨ lv.badMod kp.2 = true))
  | [], _, h => by simp at h
  | kp :: rest, m, h => by
    unfold fillList
    by_cases h1 : IndexVal lv n kp.1
    · by_cases h2 : IndexVal lv n kp.2
      · obtain ⟨e, he, he2⟩ := fillList_bad rest
          (cmInc m ((lv.toInt kp.2).getD 0).toNat ((lv.toInt kp.1).getD 0).toNat) (by
          obtain ⟨x, hx, hx2⟩ := h
          rcases List.mem_cons.1 hx with e | e
          · subst e; tauto
          · exact ⟨x, e, hx2⟩)
        refine ⟨e, ?_, ?_⟩
        · simp only [bind, Except.bind, (labelIndex_ok h1).1, (labelIndex_ok h2).1, he]
        · rcases he2 with h | h | ⟨h, x, hx, hx2⟩
          · exact Or.inl h
          · exact Or.inr (Or.inl h)
          · exact Or.inr (Or.inr ⟨h, x, by simp [hx], hx2⟩)
      · obtain ⟨e, he, he2⟩ := labelIndex_bad h2
        refine ⟨e, ?_, ?_⟩
        · simp only [bind, Except.bind, (labelIndex_ok h1).1, he]
        · rcases he2 with h | h | ⟨h, hx⟩
          · exact Or.inl h
          · exact Or.inr (Or.inl h)
          · exact Or.inr (Or.inr ⟨h, kp, by simp, Or.inr hx⟩)
    · obtain ⟨e, he, he2⟩ := labelIndex_bad h1
      refine ⟨e, ?_, ?_⟩
      · simp only [bind, Except.bind, he]
      · rcases he2 with h | h | ⟨h, hx⟩
        · exact Or.inl h
        · exact Or.inr (Or.inl h)
        · exact Or.inr (Or.inr ⟨h, kp, by simp, Or.inl hx⟩)

/-- C42. With a list of `n` labels the values are indices into the list: the matrix counts the pairs
and is labelled by the list. -/
theorem C42_confusion_list (lv : LabelVals V) {kO pO : Obj V} {known pred : List V}
    (hk : OneFeature kO known) (hp : OneFeature pO pred) (hl : known.length = pred.length) (frac : Bool)
    {l : List String} (hn : l.Nodup) (h : ∀ v, v ∈ known ∨ v ∈ pred → IndexVal lv l.length v) :
    ∃ r, confusionMatrix lv kO pO (.list l) frac = .ok r ∧
      r.pts.len = l.length ∧ r.fts.len = l.length ∧ r.data.length = l.length ∧
      (∀ row ∈ r.data, row.length = l.length) ∧
      (∀ i j, i < l.length → j < l.length →
        r.elem? i j = some ((intHits lv known pred j i : ℚ) / cmDivisor frac known.length)) ∧
      r.pts.getNames = l.map (fun s => some ("predicted_" ++ s)) ∧
      r.fts.getNames = l.map (fun s => some ("known_" ++ s)) := by
  have hz : ∀ kp ∈ known.zip pred, IndexVal lv l.length kp.1 ∧ IndexVal lv l.length kp.2 := by
    intro kp hkp
    have := List.of_mem_zip (a := kp.1) (b := kp.2) hkp
    exact ⟨h _ (Or.inl this.1), h _ (Or.inr this.2)⟩
  obtain ⟨m, h1, h2, h3⟩ := fillList_ok lv (n := l.length) (fun v => ((lv.toInt v).getD 0).toNat)
    (known.zip pred) (cmZeros l.length) (cmZeros_shape _)
    (fun kp hkp => ⟨(labelIndex_ok (hz kp hkp).1).1, (labelIndex_ok (hz kp hkp).2).1⟩)
    (fun kp hkp => ⟨(labelIndex_ok (hz kp hkp).1).2, (labelIndex_ok (hz kp hkp).2).2⟩)
  have e1 := init_some_ok (n := l.length) (l := l.map (fun s => some ("predicted_" ++ s))) (by simp)
    (prefix_nodup (str := id) hn "predicted_" (by simp))
  have e2 := init_some_ok (n := l.length) (l := l.map (fun s => some ("known_" ++ s))) (by simp)
    (prefix_nodup (str := id) hn "known_" (by simp))
  refine ⟨⟨m.map (fun r => r.map (cmValue frac known.length)),
    ⟨l.length, some ⟨namedPairs 0 (l.map (fun s => some ("predicted_" ++ s))),
      l.map (fun s => some ("predicted_" ++ s))⟩⟩,
    ⟨l.length, some ⟨namedPairs 0 (l.map (fun s => some ("known_" ++ s))),
      l.map (fun s => some ("known_" ++ s))⟩⟩⟩, ?_, rfl, rfl, ?_, ?_, ?_, rfl, rfl⟩
  · rw [cm_front lv hk hp hl]
    simp only [cmCounts, bind, Except.bind, pure, Except.pure, h1, Obj.make, e1, e2]
  · simp [h2.rows]
  · intro row hr
    obtain ⟨x, hx, rfl⟩ := List.mem_map.1 hr
    simp [h2.cols x hx]
  · intro i j hi hj
    have hc := h3 i j
    rw [cmZeros_cell, Nat.zero_add] at hc
    unfold Obj.elem?
    dsimp only
    rw [List.getElem?_map]
    have hil : i < m.length := by rw [h2.rows]; exact hi
    have hjl : j < m[i].length := by rw [h2.cols _ (List.getElem_mem hil)]; exact hj
    unfold cellN at hc
    rw [List.getElem?_eq_getElem hil] at hc ⊢
    simp only [Option.map_some, Option.bind_some] at hc ⊢
    rw [List.getElem?_map]
    rw [List.getElem?_eq_getElem hjl] at hc ⊢
    simp only [Option.getD_some] at hc
    have : intHits lv known pred j i
        = (known.zip pred).countP (fun kp => ((lv.toInt kp.1).getD 0).toNat = j ∧
            ((lv.toInt kp.2).getD 0).toNat = i) := by
      unfold intHits
      rw [← List.countP_eq_length_filter]
      apply List.countP_congr
      intro kp hkp
      obtain ⟨⟨_, a, _, ha⟩, ⟨_, b, _, hb⟩⟩ := hz kp hkp
      simp [ha, hb]
    simp only [Option.map_some, hc, this, cm_value]

/-- C42. With a list of `n` labels, any value which is not one of `0 … n-1` is refused. -/
theorem C42_confusion_list_refused (lv : LabelVals V) {kO pO : Obj V} {known pred : List V}
    (hk : OneFeature kO known) (hp : OneFeature pO pred) (hl : known.length = pred.length) (frac : Bool)
    {l : List String} {v : V} (hv : v ∈ known ∨ v ∈ pred) (hno : ¬ IndexVal lv l.length v) :
    ∃ e, confusionMatrix lv kO pO (.list l) frac = .error e ∧
      (e = .IndexError ∨ e = .InvalidArgumentValue ∨
        (e = .ValueError ∧ ∃ w, (w ∈ known ∨ w ∈ pred) ∧ lv.badMod w = true)) := by
  obtain ⟨e, he, he2⟩ := fillList_bad (lv := lv) (n := l.length) (known.zip pred) (cmZeros l.length) (by
    rcases hv with hv | hv
    · obtain ⟨i, hi⟩ := List.mem_iff_getElem?.1 hv
      have hil := (List.getElem?_eq_some_iff.1 hi).1
      refine ⟨(v, pred[i]'(by omega)), ?_, Or.inl hno⟩
      apply List.mem_iff_getElem?.2
      exact ⟨i, List.getElem?_zip_eq_some.2 ⟨hi, List.getElem?_eq_getElem (by omega)⟩⟩
    · obtain ⟨i, hi⟩ := List.mem_iff_getElem?.1 hv
      have hil := (List.getElem?_eq_some_iff.1 hi).1
      refine ⟨(known[i]'(by omega), v), ?_, Or.inr hno⟩
      apply List.mem_iff_getElem?.2
      exact ⟨i, List.getElem?_zip_eq_some.2 ⟨List.getElem?_eq_getElem (by omega), hi⟩⟩)
  refine ⟨e, ?_, ?_⟩
  · rw [cm_front lv hk hp hl]
    simp only [cmCounts, bind, Except.bind, he]
  · rcases he2 with h | h | ⟨h, x, hx, hx2⟩
    · exact Or.inl h
    · exact Or.inr (Or.inl h)
    · have := List.of_mem_zip (a := x.1) (b := x.2) hx
      refine Or.inr (Or.inr ⟨h, ?_⟩)
      rcases hx2 with hx2 | hx2
      · exact ⟨x.1, Or.inl this.1, hx2⟩
      · exact ⟨x.2, Or.inr this.2, hx2⟩

/-! ### Every prediction is counted once -/

theorem sum_indicator {labels : List V} (hn : labels.Nodup) {a : V} (h : a ∈ labels) :
    (labels.map (fun i => if a = i then 1 else 0)).sum = 1 := by
  induction labels with
  | nil => cases h
  | cons b l ih =>
    rw [List.map_cons, List.sum_cons]
    have hn' := List.nodup_cons.1 hn
    by_cases e : a = b
    · subst e
      have : l.map (fun i => if a = i then 1 else 0) = l.map (fun _ => 0) := by
        apply List.map_congr_left
        intro i hi
        rw [if_neg]
        intro e; subst e; exact hn'.1 hi
      rw [this]; simp
    · rw [if_neg e, ih hn'.2 ((List.mem_cons.1 h).resolve_left e)]

theorem sum_count_fst (labels : List V) (hn : labels.Nodup) (pairs : List (V × V)) (p : V)
    (h : ∀ kp ∈ pairs, kp.1 ∈ labels) :
    (labels.map (fun k => pairs.count (k, p))).sum = (pairs.map Prod.snd).count p := by
  induction pairs with
  | nil => simp
  | cons kp rest ih =>
    have hr := ih (fun x hx => h x (by simp [hx]))
    have hk := h kp (by simp)
    rw [List.map_cons, List.count_cons, ← hr]
    have : ∀ k, (kp :: rest).count (k, p) = rest.count (k, p) + if kp = (k, p) then 1 else 0 := by
      intro k
      rw [List.count_cons]
      by_cases e : kp = (k, p) <;> simp [e]
    simp only [this, List.sum_map_add]
    congr 1
    by_cases e : kp.2 = p
    · rw [if_pos (by simpa using e)]
      have : ∀ k, (if kp = (k, p) then 1 else 0) = if kp.1 = k then 1 else 0 := by
        intro k
        congr 1
        rw [← e]
        exact propext ⟨fun h => by rw [h], fun h => Prod.ext h rfl⟩
      simp only [this]
      exact sum_indicator hn hk
    · rw [if_neg (by simpa using e)]
      have : ∀ k, (if kp = (k, p) then 1 else 0) = 0 := by
        intro k
        rw [if_neg]
        intro hh; exact e (by rw [hh])
      simp [this]

theorem count_swap (pairs : List (V × V)) (a b : V) :
    (pairs.map Prod.swap).count (b, a) = pairs.count (a, b) := by
  rw [show (b, a) = Prod.swap (a, b) from rfl]
  exact List.count_map_of_injective _ _ Prod.swap_injective _

theorem sum_count_snd (labels : List V) (hn : labels.Nodup) (pairs : List (V × V)) (k : V)
    (h : ∀ kp ∈ pairs, kp.2 ∈ labels) :
    (labels.map (fun p => pairs.count (k, p))).sum = (pairs.map Prod.fst).count k := by
  have := sum_count_fst labels hn (pairs.map Prod.swap) k (by
    intro kp hkp
    obtain ⟨x, hx, rfl⟩ := List.mem_map.1 hkp
    exact h x hx)
  simp only [count_swap, List.map_map] at this
  exact this

theorem sum_count_labels (labels : List V) (hn : labels.Nodup) (l : List V) (h : ∀ v ∈ l, v ∈ labels) :
    (labels.map (fun v => l.count v)).sum = l.length := by
  induction l with
  | nil => simp
  | cons a l ih =>
    have hr := ih (fun x hx => h x (by simp [hx]))
    rw [List.length_cons, ← hr]
    have : ∀ v, (a :: l).count v = l.count v + if a = v then 1 else 0 := by
      intro v
      rw [List.count_cons]
      by_cases e : a = v <;> simp [e]
    simp only [this, List.sum_map_add]
    congr 1
    exact sum_indicator hn (h a (by simp))


theorem row_eq {labels : List V} {str : V → String} {known pred : List V} {d : ℚ} {r : Obj ℚ}
    (h : IsConfusion labels str known pred d r) {i : Nat} {p : V} (hi : labels[i]? = some p) :
    r.vector .point i = labels.map (fun k => ((known.zip pred).count (k, p) : ℚ) / d) := by
  have hil : i < r.data.length := by rw [h.rows]; exact (List.getElem?_eq_some_iff.1 hi).1
  show (r.data[i]?).getD [] = _
  rw [List.getElem?_eq_getElem hil]
  apply List.ext_getElem?
  intro j
  simp only [Option.getD_some]
  rw [List.getElem?_map]
  cases hj : labels[j]? with
  | none =>
    rw [Option.map_none]
    rw [List.getElem?_eq_none_iff] at hj ⊢
    rw [h.cols _ (List.getElem_mem hil)]; exact hj
  | some k =>
    have := h.elem i j p k hi hj
    unfold Obj.elem? at this
    rw [List.getElem?_eq_getElem hil] at this
    simpa using this

theorem col_eq {labels : List V} {str : V → String} {known pred : List V} {d : ℚ} {r : Obj ℚ}
    (h : IsConfusion labels str known pred d r) {j : Nat} {k : V} (hj : labels[j]? = some k) :
    r.vector .feature j = labels.map (fun p => ((known.zip pred).count (k, p) : ℚ) / d) := by
  show r.data.filterMap (·[j]?) = _
  have : r.data.map (·[j]?) = labels.map (fun p => some (((known.zip pred).count (k, p) : ℚ) / d)) := by
    apply List.ext_getElem?
    intro i
    rw [List.getElem?_map, List.getElem?_map]
    cases hi : labels[i]? with
    | none =>
      have : r.data[i]? = none := by
        rw [List.getElem?_eq_none_iff] at hi ⊢; rw [h.rows]; exact hi
      rw [this]; rfl
    | some p =>
      have hil : i < r.data.length := by rw [h.rows]; exact (List.getElem?_eq_some_iff.1 hi).1
      have he := h.elem i j p k hi hj
      unfold Obj.elem? at he
      rw [List.getElem?_eq_getElem hil] at he ⊢
      simpa using he
  have e : r.data.filterMap (·[j]?) = (r.data.map (·[j]?)).filterMap id := by
    rw [List.filterMap_map]; rfl
  rw [e, this, List.filterMap_map]
  rw [← List.filterMap_eq_map]
  rfl

theorem cast_sum_div (l : List V) (f : V → Nat) (d : ℚ) :
    (l.map (fun v => (f v : ℚ) / d)).sum = ((l.map f).sum : ℚ) / d := by
  induction l with
  | nil => simp
  | cons a l ih => simp only [List.map_cons, List.sum_cons, ih]; push_cast; ring

/-- C42. In a confusion matrix whose labels include all values, the sum of a feature is the number of
times its label is known, the sum of a point is the number of times its label is predicted, and
every prediction is counted once in total. -/
theorem C42_confusion_total {labels : List V} (hn : labels.Nodup) {str : V → String}
    {known pred : List V} (hl : known.length = pred.length) {d : ℚ} {r : Obj ℚ}
    (h : IsConfusion labels str known pred d r) (hk : ∀ v ∈ known, v ∈ labels)
    (hp : ∀ v ∈ pred, v ∈ labels) :
    (∀ j k, labels[j]? = some k → (r.vector .feature j).sum = (known.count k : ℚ) / d) ∧
    (∀ i p, labels[i]? = some p → (r.vector .point i).sum = (pred.count p : ℚ) / d) ∧
    ((r.data.map List.sum).sum = (known.length : ℚ) / d) := by
  have hz : ∀ kp ∈ known.zip pred, kp.1 ∈ labels ∧ kp.2 ∈ labels := by
    intro kp hkp
    have := List.of_mem_zip (a := kp.1) (b := kp.2) hkp
    exact ⟨hk _ this.1, hp _ this.2⟩
  have hrow : ∀ i p, labels[i]? = some p → (r.vector .point i).sum = (pred.count p : ℚ) / d := by
    intro i p hi
    rw [row_eq h hi, cast_sum_div labels (fun k => (known.zip pred).count (k, p)),
      sum_count_fst labels hn _ p (fun kp hkp => (hz kp hkp).1),
      List.map_snd_zip (by omega)]
  refine ⟨?_, hrow, ?_⟩
  · intro j k hj
    rw [col_eq h hj, cast_sum_div labels (fun p => (known.zip pred).count (k, p)),
      sum_count_snd labels hn _ k (fun kp hkp => (hz kp hkp).2),
      List.map_fst_zip (by omega)]
  · have : r.data.map List.sum = labels.map (fun p => (pred.count p : ℚ) / d) := by
      apply List.ext_getElem?
      intro i
      rw [List.getElem?_map, List.getElem?_map]
      cases hi : labels[i]? with
      | none =>
        have : r.data[i]? = none := by
          rw [List.getElem?_eq_none_iff] at hi ⊢; rw [h.rows]; exact hi
        rw [this]; rfl
      | some p =>
        have hil : i < r.data.length := by rw [h.rows]; exact (List.getElem?_eq_some_iff.1 hi).1
        have := hrow i p hi
        simp only [Obj.vector, List.getElem?_eq_getElem hil, Option.getD_some] at this
        rw [List.getElem?_eq_getElem hil]
        simp [this]
    rw [this, cast_sum_div labels (fun p => pred.count p), sum_count_labels labels hn pred hp, hl]

end Nimble
