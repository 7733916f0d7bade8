import Verif.Model.TrainTest
import Verif.Lemmas.Window
import Verif.Props.Group
import Verif.Props.Binary
import Verif.Props.Names
import Mathlib.Data.Rat.Floor
import Mathlib.Tactic.Linarith

/-!
# C34: trainAndTestSets
-/

namespace Nimble
variable {V : Type}

/-- Python's `round` gives an integer at distance at most one half, and the even one when two are
equally near. -/
theorem pyRound_spec (q : Rat) :
    |(pyRound q : Rat) - q| ≤ 1 / 2 ∧ (|(pyRound q : Rat) - q| = 1 / 2 → pyRound q % 2 = 0) := by
  have h1 : (q.floor : Rat) ≤ q := Int.floor_le q
  have h2 : q < (q.floor : Rat) + 1 := Int.lt_floor_add_one q
  unfold pyRound
  split
  · next h =>
    refine ⟨abs_le.2 ⟨by linarith, by linarith⟩, ?_⟩
    intro he
    exfalso
    rw [abs_of_nonpos (by linarith)] at he
    linarith
  · next h =>
    split
    · next h' =>
      push_cast
      refine ⟨abs_le.2 ⟨by linarith, by linarith⟩, ?_⟩
      intro he
      exfalso
      rw [abs_of_nonneg (by linarith)] at he
      linarith
    · next h' =>
      split
      · next h3 => exact ⟨abs_le.2 ⟨by linarith, by linarith⟩, fun _ => h3⟩
      · next h3 =>
        push_cast
        exact ⟨abs_le.2 ⟨by linarith, by linarith⟩, fun _ => by omega⟩

theorem pyRound_bounds {q : Rat} {n : Nat} (h0 : 0 ≤ q) (hn : q ≤ n) :
    0 ≤ pyRound q ∧ pyRound q ≤ n := by
  have h := abs_le.1 (pyRound_spec q).1
  have a1 : (-1 : Rat) < (pyRound q : Rat) := by linarith [h.1]
  have a2 : (pyRound q : Rat) < ((n : Int) : Rat) + 1 := by push_cast; linarith [h.2]
  have b1 : (-1 : Int) < pyRound q := by exact_mod_cast a1
  have b2 : pyRound q < (n : Int) + 1 := by exact_mod_cast a2
  omega

namespace Obj

/-- The points are dealt out in the given order: first the training points, then as many test points
as the fraction asks for (to the nearest integer). -/
structure Dealt (o : Obj V) (order : List Nat) (frac : Rat) (trainI testI : List Nat) : Prop where
  all : trainI ++ testI = order
  size : |(testI.length : Rat) - frac * o.pts.len| ≤ 1 / 2

/-- Indices dealt out of a shuffled range: every point lands in exactly one set. -/
theorem Dealt.partition {o : Obj V} {order trainI testI : List Nat} {frac : Rat}
    (d : o.Dealt order frac trainI testI) (hord : order.Perm (List.range o.pts.len)) (i : Nat)
    (hi : i < o.pts.len) : (i ∈ trainI ∧ i ∉ testI) ∨ (i ∉ trainI ∧ i ∈ testI) := by
  have hn : (trainI ++ testI).Nodup := by
    rw [d.all]; exact hord.nodup_iff.2 List.nodup_range
  have hm : i ∈ trainI ++ testI := by rw [d.all]; exact hord.mem_iff.2 (by simpa using hi)
  have hd := (List.nodup_append.1 hn).2.2
  rcases List.mem_append.1 hm with h | h
  · exact Or.inl ⟨h, fun h' => hd i h i h' rfl⟩
  · exact Or.inr ⟨fun h' => hd i h' i h rfl, h⟩

private theorem copyPoints_ok {samp : List Nat → Nat → List Nat} {o : Obj V} (h : o.WF)
    {idx : List Nat} (hn : idx.Nodup) (hb : ∀ i ∈ idx, i < o.pts.len) :
    ∃ r, o.copyPoints samp idx = .ok r ∧ Window o r idx (List.range o.fts.len) := by
  obtain ⟨q, r, -, -, h3, h4, -⟩ := extract_of_targets (samp := samp) h
    (targets_indices (o := o) .point hn hb) hn hb
  exact ⟨r, h3, window_points h h4 hb⟩

/-- What all three forms of the call do first. -/
private theorem deal {samp : List Nat → Nat → List Nat} {o : Obj V} (h : o.WF) {order : List Nat}
    (hord : order.Perm (List.range o.pts.len)) {frac : Rat} (h0 : 0 ≤ frac) (h1 : frac ≤ 1) :
    ∃ trainI testI trainX testX, o.Dealt order frac trainI testI ∧
      (∀ i ∈ trainI, i < o.pts.len) ∧ (∀ i ∈ testI, i < o.pts.len) ∧ trainI.Nodup ∧ testI.Nodup ∧
      Window o trainX trainI (List.range o.fts.len) ∧ Window o testX testI (List.range o.fts.len) ∧
      ∀ labels, o.trainAndTestSets samp order frac labels =
        o.splitLabels samp labels trainX testX trainI testI testI.length := by
  have hlen : order.length = o.pts.len := by simpa using hord.length_eq
  have hnd : order.Nodup := hord.nodup_iff.2 List.nodup_range
  have hb : ∀ i ∈ order, i < o.pts.len := fun i hi => by simpa using hord.mem_iff.1 hi
  have hn0 : (0 : Rat) ≤ (o.pts.len : Rat) := by exact_mod_cast Nat.zero_le _
  have q0 : 0 ≤ frac * (o.pts.len : Rat) := mul_nonneg h0 hn0
  have q1 : frac * (o.pts.len : Rat) ≤ (o.pts.len : Nat) := by
    have := mul_le_mul_of_nonneg_right h1 hn0
    simpa using this
  have hbd := pyRound_bounds q0 q1
  have hr := (pyRound_spec (frac * (o.pts.len : Rat))).1
  generalize ht : (pyRound (frac * (o.pts.len : Rat))).toNat = t
  have htz : pyRound (frac * (o.pts.len : Rat)) = (t : Int) := by omega
  have htn : t ≤ o.pts.len := by omega
  rw [htz] at hr
  have ndt : (order.take (o.pts.len - t)).Nodup := hnd.sublist (List.take_sublist _ _)
  have ndd : (order.drop (o.pts.len - t)).Nodup := hnd.sublist (List.drop_sublist _ _)
  have bt : ∀ i ∈ order.take (o.pts.len - t), i < o.pts.len := fun i hi => hb i (List.mem_of_mem_take hi)
  have bd : ∀ i ∈ order.drop (o.pts.len - t), i < o.pts.len := fun i hi => hb i (List.mem_of_mem_drop hi)
  have hdl : (order.drop (o.pts.len - t)).length = t := by rw [List.length_drop, hlen]; omega
  obtain ⟨trainX, e1, w1⟩ := copyPoints_ok (samp := samp) h ndt bt
  obtain ⟨testX, e2, w2⟩ := copyPoints_ok (samp := samp) h ndd bd
  refine ⟨_, _, trainX, testX, ⟨List.take_append_drop _ _, ?_⟩, bt, bd, ndt, ndd, w1, w2, ?_⟩
  · rw [hdl]; simpa using hr
  · intro labels
    unfold trainAndTestSets
    rw [if_neg (by simp [h0, h1])]
    simp only [ht, e1, e2, bind, Except.bind, hdl]

/-- **C34** (no labels): the two sets are the points dealt out in the given order, with all features
and names. -/
theorem C34_no_labels {samp : List Nat → Nat → List Nat} {o : Obj V} (h : o.WF) {order : List Nat}
    (hord : order.Perm (List.range o.pts.len)) {frac : Rat} (h0 : 0 ≤ frac) (h1 : frac ≤ 1) :
    ∃ trainI testI trainX testX,
      o.trainAndTestSets samp order frac .none = .ok ⟨trainX, testX, none⟩ ∧
      o.Dealt order frac trainI testI ∧
      Window o trainX trainI (List.range o.fts.len) ∧
      Window o testX testI (List.range o.fts.len) := by
  obtain ⟨a, b, x, y, hd, -, -, -, -, w1, w2, he⟩ := deal (samp := samp) h hord h0 h1
  exact ⟨a, b, x, y, he .none, hd, w1, w2⟩

private theorem namesInBoth_ok {a : AxisSt} (h : a.Ok) (h0 : 0 < a.len) {l : List (Option String)}
    (hl : none ∉ l) :
    namesInBoth a l = .ok ((l.filterMap id).filter (fun s => decide (some s ∈ a.getNames))) := by
  induction l with
  | nil => rfl
  | cons n l ih =>
    cases n with
    | none => simp at hl
    | some s =>
      simp only [List.mem_cons, not_or] at hl
      simp only [namesInBoth, Option.getD_some, C04_hasName h h0, ih hl.2, Option.isNone_some,
        bind, Except.bind, pure, Except.pure]
      by_cases hs : some s ∈ a.getNames
      · simp [hs]
      · simp [hs]

/-- Resolving names that are all present. -/
private theorem resolveIdents_names {a : AxisSt} (h : a.Ok) {ss : List String}
    (hs : ∀ s ∈ ss, some s ∈ a.getNames) (hn : ss.Nodup) :
    ∃ cols, resolveIdents a (ss.map .str) = .ok cols ∧ cols.Nodup ∧
      ∀ i, i ∈ cols ↔ ∃ s ∈ ss, a.getNames[i]? = some (some s) := by
  have hc := h.consistent
  induction ss with
  | nil => exact ⟨[], rfl, by simp, by simp⟩
  | cons s ss ih =>
    obtain ⟨i, hi⟩ := List.mem_iff_getElem?.1 (hs s (by simp))
    have hg := (hc.getName_iff_getIndex s i).1 hi
    simp only [List.nodup_cons] at hn
    obtain ⟨cols, h1, h2, h3⟩ := ih (fun t ht => hs t (by simp [ht])) hn.2
    refine ⟨i :: cols, ?_, ?_, ?_⟩
    · simp only [List.map_cons, resolveIdents, hg, h1, bind, Except.bind, pure, Except.pure,
        Int.toNat_natCast]
    · rw [List.nodup_cons]
      refine ⟨?_, h2⟩
      intro hm
      obtain ⟨t, ht, he⟩ := (h3 i).1 hm
      rw [hi] at he
      simp only [Option.some.injEq] at he
      exact hn.1 (he ▸ ht)
    · intro k
      rw [List.mem_cons, h3]
      constructor
      · rintro (rfl | ⟨t, ht, he⟩)
        · exact ⟨s, by simp, hi⟩
        · exact ⟨t, by simp [ht], he⟩
      · rintro ⟨t, ht, he⟩
        rcases List.mem_cons.1 ht with rfl | ht
        · left
          have h4 := (hc.getName_iff_getIndex t k).1 he
          rw [hg] at h4
          simp at h4; exact h4.symm
        · exact Or.inr ⟨t, ht, he⟩

/-- The features whose names the labels do not use. -/
def unshared (o l : Obj V) : List Nat :=
  (List.range o.fts.len).filter (fun k =>
    !((o.fts.getNames[k]?).join.any (fun s => decide (some s ∈ l.fts.getNames))))

private theorem deleteNamed_ok {samp : List Nat → Nat → List Nat} {o x : Obj V} {ps : List Nat}
    (h : o.WF) (w : Window o x ps (List.range o.fts.len)) {ss : List String}
    (hs : ∀ s ∈ ss, some s ∈ o.fts.getNames) (hn : ss.Nodup) :
    ∃ r, x.deleteNamed samp ss = .ok r ∧ Window o r ps
      ((List.range o.fts.len).filter (fun k =>
        !((o.fts.getNames[k]?).join.any (fun s => decide (s ∈ ss))))) := by
  have hxn : x.fts.getNames = o.fts.getNames := by
    rw [w.fNames, pick_range_of_eq _ h.fts.length_getNames.symm]
  have hxl : x.fts.len = o.fts.len := by rw [w.fLen]; simp
  obtain ⟨cols, h1, h2, h3⟩ := resolveIdents_names w.wf.fts (by rw [hxn]; exact hs) hn
  have ht : x.targets samp .feature { target := some (.list (ss.map .str)) } = .ok cols := by
    rw [C08_list_selector w.wf]
    exact ⟨(resolveIdents_ok_iff _ _ _ w.wf.fts).1 h1, h2⟩
  have hb : ∀ i ∈ cols, i < (x.axis .feature).len := resolveIdents_bound w.wf.fts h1
  obtain ⟨q, r, -, hd, -, -, R⟩ := extract_of_targets (samp := samp) w.wf ht h2 hb
  refine ⟨q, ?_, ?_⟩
  · unfold deleteNamed
    rw [hd]; rfl
  · have hlen : (x.axis .feature).len = o.fts.len := hxl
    have := w.selectFeatures h (by simp) R (by
      intro i hi; have := restIdx_bound i hi; rw [hlen] at this; simpa using this)
    rw [pick_range_self (by intro i hi; have := restIdx_bound i hi; rwa [hlen] at this), hlen] at this
    have e : restIdx o.fts.len cols = (List.range o.fts.len).filter (fun k =>
        !((o.fts.getNames[k]?).join.any (fun s => decide (s ∈ ss)))) := by
      unfold restIdx
      apply List.filter_congr
      intro k hk
      have hk' : k < o.fts.getNames.length := by
        rw [h.fts.length_getNames]; simpa using hk
      have hiff := h3 k
      rw [hxn] at hiff
      rw [List.getElem?_eq_getElem hk'] at hiff ⊢
      cases hg : o.fts.getNames[k] with
      | none =>
        rw [hg] at hiff
        have : k ∉ cols := by rw [hiff]; rintro ⟨s, _, hs⟩; simp at hs
        simp [this]
      | some s =>
        rw [hg] at hiff
        by_cases hm : s ∈ ss
        · have : k ∈ cols := hiff.2 ⟨s, hm, rfl⟩
          simp [this, hm]
        · have : k ∉ cols := by
            rw [hiff]; rintro ⟨t, ht, he⟩
            simp only [Option.some.injEq] at he
            exact hm (he ▸ ht)
          simp [this, hm]
    rw [e] at this
    exact this

/-- **C34** (labels as an object): X and Y sets hold the same points in the same order; features of
the calling object that the labels also have (by name) are left out of the X sets. -/
theorem C34_label_object {samp : List Nat → Nat → List Nat} {o l : Obj V} (h : o.WF) (hl : l.WF)
    {order : List Nat} (hord : order.Perm (List.range o.pts.len)) {frac : Rat} (h0 : 0 ≤ frac)
    (h1 : frac ≤ 1) (hsize : l.pts.len = o.pts.len)
    (hnames : NamesAgree o.pts.getNames l.pts.getNames)
    (hfe : 0 < o.fts.len) (hdef : l.fts.namesCreated = true → none ∉ l.fts.getNames) :
    ∃ trainI testI trainX testX trainY testY,
      o.trainAndTestSets samp order frac (.obj l) = .ok ⟨trainX, testX, some (trainY, testY)⟩ ∧
      o.Dealt order frac trainI testI ∧
      Window o trainX trainI (unshared o l) ∧ Window o testX testI (unshared o l) ∧
      Window l trainY trainI (List.range l.fts.len) ∧
      Window l testY testI (List.range l.fts.len) := by
  obtain ⟨a, b, x, y, hd, ba, bb, na, nb, w1, w2, he⟩ := deal (samp := samp) h hord h0 h1
  obtain ⟨ly, e1, wl1⟩ := copyPoints_ok (samp := samp) hl na (by rw [hsize]; exact ba)
  obtain ⟨lt, e2, wl2⟩ := copyPoints_ok (samp := samp) hl nb (by rw [hsize]; exact bb)
  have hchk := (namesEqualCheck_iff h.pts hl.pts).2 hnames
  have hrun : o.trainAndTestSets samp order frac (.obj l) = o.splitObj samp l x y a b := he (.obj l)
  have nocommon : (∀ s, some s ∈ o.fts.getNames → some s ∉ l.fts.getNames) →
      unshared o l = List.range o.fts.len := by
    intro hno
    unfold unshared
    rw [List.filter_eq_self]
    intro k hk
    cases hj : (o.fts.getNames[k]?).join with
    | none => rfl
    | some s =>
      have hk' : k < o.fts.getNames.length := by rw [h.fts.length_getNames]; simpa using hk
      rw [List.getElem?_eq_getElem hk'] at hj
      have hj' : o.fts.getNames[k] = some s := by simpa using hj
      have := hno s (by rw [← hj']; exact List.getElem_mem hk')
      simp [this]
  have plain : o.splitObj samp l x y a b = .ok ⟨x, y, some (ly, lt)⟩ → unshared o l = List.range o.fts.len →
      ∃ trainI testI trainX testX trainY testY,
      o.trainAndTestSets samp order frac (.obj l) = .ok ⟨trainX, testX, some (trainY, testY)⟩ ∧
      o.Dealt order frac trainI testI ∧
      Window o trainX trainI (unshared o l) ∧ Window o testX testI (unshared o l) ∧
      Window l trainY trainI (List.range l.fts.len) ∧
      Window l testY testI (List.range l.fts.len) := by
    intro hs hu
    refine ⟨a, b, x, y, ly, lt, by rw [hrun, hs], hd, ?_, ?_, wl1, wl2⟩
    · rw [hu]; exact w1
    · rw [hu]; exact w2
  have hsplit : o.splitObj samp l x y a b =
      (if o.fts.namesCreated && l.fts.namesCreated then
        (namesInBoth o.fts l.fts.getNames).bind (fun both =>
          if both.isEmpty then .ok ⟨x, y, some (ly, lt)⟩
          else (x.deleteNamed samp both).bind (fun p => (y.deleteNamed samp both).bind
            (fun q => .ok ⟨p, q, some (ly, lt)⟩)))
      else .ok ⟨x, y, some (ly, lt)⟩) := by
    unfold splitObj
    rw [if_neg (by omega), if_neg (by simp [hchk])]
    simp only [e1, e2, bind, Except.bind, pure, Except.pure]
  by_cases hcr : o.fts.namesCreated && l.fts.namesCreated
  · rw [if_pos hcr] at hsplit
    have hlc : l.fts.namesCreated = true := by simp at hcr; exact hcr.2
    have hboth := namesInBoth_ok h.fts hfe (hdef hlc)
    generalize hB : (l.fts.getNames.filterMap id).filter (fun s => decide (some s ∈ o.fts.getNames)) = both at hboth
    have hmem : ∀ s, s ∈ both ↔ some s ∈ l.fts.getNames ∧ some s ∈ o.fts.getNames := by
      intro s; rw [← hB]; simp
    rw [hboth] at hsplit
    have hsplit' : o.splitObj samp l x y a b =
        if both.isEmpty then .ok ⟨x, y, some (ly, lt)⟩
          else (x.deleteNamed samp both).bind (fun p => (y.deleteNamed samp both).bind
            (fun q => .ok ⟨p, q, some (ly, lt)⟩)) := hsplit
    by_cases hempty : both.isEmpty
    · rw [if_pos hempty] at hsplit'
      refine plain hsplit' (nocommon ?_)
      intro s hs hs'
      have : s ∈ both := (hmem s).2 ⟨hs', hs⟩
      rw [List.isEmpty_iff] at hempty
      simp [hempty] at this
    · rw [if_neg hempty] at hsplit'
      have hnd : both.Nodup := by
        rw [← hB]
        apply List.Nodup.filter
        exact hl.fts.reduceOption_nodup
      obtain ⟨p, hp, wp⟩ := deleteNamed_ok (samp := samp) h w1 (fun s hs => ((hmem s).1 hs).2) hnd
      obtain ⟨q, hq, wq⟩ := deleteNamed_ok (samp := samp) h w2 (fun s hs => ((hmem s).1 hs).2) hnd
      have hu : (List.range o.fts.len).filter (fun k =>
          !((o.fts.getNames[k]?).join.any (fun s => decide (s ∈ both)))) = unshared o l := by
        unfold unshared
        apply List.filter_congr
        intro k hk
        cases hj : (o.fts.getNames[k]?).join with
        | none => rfl
        | some s =>
          have hk' : k < o.fts.getNames.length := by rw [h.fts.length_getNames]; simpa using hk
          rw [List.getElem?_eq_getElem hk'] at hj
          have hj' : o.fts.getNames[k] = some s := by simpa using hj
          have hso : some s ∈ o.fts.getNames := by rw [← hj']; exact List.getElem_mem hk'
          have := hmem s
          simp [this, hso]
      rw [hu] at wp wq
      refine ⟨a, b, p, q, ly, lt, ?_, hd, wp, wq, wl1, wl2⟩
      rw [hrun, hsplit', hp]
      simp only [Except.bind, hq]
  · rw [if_neg hcr] at hsplit
    refine plain hsplit (nocommon ?_)
    intro s hs hs'
    apply hcr
    have c1 : ∀ {A : AxisSt}, some s ∈ A.getNames → A.namesCreated = true := by
      intro A hA
      cases hT : A.tbl with
      | none => simp [AxisSt.getNames, hT] at hA
      | some t => simp [AxisSt.namesCreated, hT]
    rw [c1 hs, c1 hs']; rfl

/-- **C34** (labels as identifiers), when the test set is not empty
(`C34_label_identifiers_violated` otherwise): the Y sets hold the named features of the points of the
X sets, in the given order, and the X sets the other features. -/
theorem C34_label_identifiers_partial {samp : List Nat → Nat → List Nat} {o : Obj V} (h : o.WF)
    {order : List Nat} (hord : order.Perm (List.range o.pts.len)) {frac : Rat} (h0 : 0 ≤ frac)
    (h1 : frac ≤ 1) {by' : GroupBy} {cols : List Nat}
    (hc : resolveIdents o.fts by'.idents = .ok cols) (hn : cols.Nodup)
    (hne : 1 / 2 < frac * (o.pts.len : Rat)) :
    ∃ trainI testI trainX testX trainY testY,
      o.trainAndTestSets samp order frac (.ids by') = .ok ⟨trainX, testX, some (trainY, testY)⟩ ∧
      o.Dealt order frac trainI testI ∧
      Window o trainX trainI (restIdx o.fts.len cols) ∧
      Window o testX testI (restIdx o.fts.len cols) ∧
      Window o trainY trainI cols ∧ Window o testY testI cols := by
  obtain ⟨a, b, x, y, hd, ba, bb, na, nb, w1, w2, he⟩ := deal (samp := samp) h hord h0 h1
  have hcb := resolveIdents_bound h.fts hc
  have hbl : b.length ≠ 0 := by
    intro hb
    have := abs_le.1 hd.size
    rw [hb] at this
    have h2 := this.1
    simp only [Nat.cast_zero] at h2
    linarith
  have part : ∀ {z : Obj V} {ps : List Nat}, Window o z ps (List.range o.fts.len) →
      ∃ p q, z.extractLabels samp (by'.target) = .ok (p, q) ∧
        Window o p ps (restIdx o.fts.len cols) ∧ Window o q ps cols := by
    intro z ps w
    have hzn : o.fts.getNames = z.fts.getNames := by
      rw [w.fNames, pick_range_of_eq _ h.fts.length_getNames.symm]
    have hzl : o.fts.len = z.fts.len := by rw [w.fLen]; simp
    have ht := targets_by (samp := samp) (g := z) (resolve_congr h.fts w.wf.fts hzl hzn hc) hn
    have hlen : (z.axis .feature).len = o.fts.len := hzl.symm
    obtain ⟨p, q, e1, -, -, S, R⟩ := extract_of_targets (samp := samp) w.wf ht hn
      (by rw [hlen]; exact hcb)
    refine ⟨p, q, ?_, ?_, ?_⟩
    · unfold extractLabels; rw [e1]; rfl
    · have := w.selectFeatures h (by simp) R (by
        intro i hi; have := restIdx_bound i hi; rw [hlen] at this; simpa using this)
      rwa [pick_range_self (by intro i hi; have := restIdx_bound i hi; rwa [hlen] at this), hlen] at this
    · have := w.selectFeatures h (by simp) S (by simpa using hcb)
      rwa [pick_range_self hcb] at this
  obtain ⟨p1, q1, e1, v1, u1⟩ := part w1
  obtain ⟨p2, q2, e2, v2, u2⟩ := part w2
  refine ⟨a, b, p1, p2, q1, q2, ?_, hd, v1, v2, u1, u2⟩
  rw [he (.ids by')]
  simp only [splitLabels, splitIds, labelTarget, if_neg hbl, e1, e2, bind, Except.bind, pure,
    Except.pure]

/-- **C34** (refusal): a fraction outside `[0, 1]` is refused. -/
theorem C34_fraction_refused (samp : List Nat → Nat → List Nat) (o : Obj V) (order : List Nat)
    {frac : Rat} (hf : frac < 0 ∨ 1 < frac) (labels : Labels V) :
    ∃ e, o.trainAndTestSets samp order frac labels = .error e := by
  refine ⟨.InvalidArgumentValue, ?_⟩
  unfold trainAndTestSets
  rw [if_pos]
  intro ⟨h1, h2⟩
  rcases hf with h | h
  · exact absurd h1 (not_le.2 h)
  · exact absurd h2 (not_le.2 h)

/-! ### Witnesses -/

/-- Three points, two features, no names. -/
def splitEx : Obj Nat := ⟨[[1, 2], [3, 4], [5, 6]], ⟨3, none⟩, ⟨2, none⟩⟩

theorem splitEx_wf : splitEx.WF := ⟨rfl, by decide, none_ok _, none_ok _⟩

example : splitEx.trainAndTestSets (fun l _ => l) [2, 0, 1] (1 / 3) (.ids (.int 1)) =
    .ok ⟨⟨[[5], [1]], ⟨2, none⟩, ⟨1, none⟩⟩, ⟨[[3]], ⟨1, none⟩, ⟨1, none⟩⟩,
      some (⟨[[6], [2]], ⟨2, none⟩, ⟨1, none⟩⟩, ⟨[[4]], ⟨1, none⟩, ⟨1, none⟩⟩)⟩ := by
  with_unfolding_all rfl

/-- C34 is false for label identifiers when the fraction rounds to no test points: the training
labels are then empty and the label feature stays among the training features. -/
theorem C34_label_identifiers_violated :
    ∃ (o : Obj Nat) (r : SplitSets Nat) (y z : Obj Nat), o.WF ∧
      o.trainAndTestSets (fun l _ => l) (List.range o.pts.len) (1 / 10) (.ids (.int 1)) = .ok r ∧
      r.labels = some (y, z) ∧ y.fts.len = 0 ∧ r.trainX.fts.len = o.fts.len :=
  ⟨splitEx, ⟨splitEx, ⟨[], ⟨0, none⟩, ⟨2, none⟩⟩,
    some (⟨[[], [], []], ⟨3, none⟩, ⟨0, none⟩⟩, ⟨[], ⟨0, none⟩, ⟨0, none⟩⟩)⟩,
    _, _, splitEx_wf, by with_unfolding_all rfl, rfl, rfl, rfl⟩

/-- C34 is false for a label object with a default feature name when both objects have feature
names: the call raises. -/
theorem C34_label_default_name_violated :
    ∃ (o l : Obj Nat), o.WF ∧ l.WF ∧ l.pts.len = o.pts.len ∧
      NamesAgree o.pts.getNames l.pts.getNames ∧
      ∃ e, o.trainAndTestSets (fun l _ => l) (List.range o.pts.len) (1 / 2) (.obj l) = .error e := by
  refine ⟨⟨[[1], [2]], ⟨2, none⟩, ⟨1, some ⟨[("a", 0)], [some "a"]⟩⟩⟩,
    ⟨[[1, 7], [2, 8]], ⟨2, none⟩, ⟨2, some ⟨[("b", 0)], [some "b", none]⟩⟩⟩, ?_, ?_, rfl, ?_,
    .InvalidArgumentType, by with_unfolding_all rfl⟩
  · refine ⟨rfl, by decide, none_ok _, ?_⟩
    intro t ht; simp only [Option.some.injEq] at ht; subst ht
    exact namedPairs_ok (l := [some "a"]) (by decide)
  · refine ⟨rfl, by decide, none_ok _, ?_⟩
    intro t ht; simp only [Option.some.injEq] at ht; subst ht
    exact namedPairs_ok (l := [some "b", none]) (by decide)
  · constructor
    · intro i s t h
      have := List.mem_of_getElem? h
      simp [AxisSt.getNames] at this
    · intro i j s h
      have := List.mem_of_getElem? h
      simp [AxisSt.getNames] at this

end Obj
end Nimble
