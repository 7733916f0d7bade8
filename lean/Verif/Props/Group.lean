import Verif.Spec
import Verif.Model.Group
import Verif.Lemmas.Group
import Verif.Lemmas.Targets
import Verif.Lemmas.Permute
import Verif.Props.Insert
import Verif.Props.Structural

/-!
# C31 groupByFeature partitions the points
-/

namespace Nimble
namespace Obj
variable {V K : Type} [DecidableEq K]

/-- `g` consists of the points `idxs` of `o`, in that order, with their names, and has the features
of `o`. -/
structure PointsOf (o g : Obj V) (idxs : List Nat) : Prop where
  wf : g.WF
  data : g.data = pick o.data idxs
  len : g.pts.len = idxs.length
  names : g.pts.getNames = pick o.pts.getNames idxs
  fLen : g.fts.len = o.fts.len
  fNames : g.fts.getNames = o.fts.getNames

theorem pointsOf_selected {o : Obj V} (h : o.WF) {i : Nat} (hi : i < o.pts.len) :
    ∃ p, o.selected .point [i] = .ok p ∧ PointsOf o p [i] := by
  obtain ⟨p, h1, h2⟩ := selected_spec h .point (tgt := [i]) (by simp) (by simpa [Obj.axis] using hi)
  exact ⟨p, h1, ⟨h2.wf, h2.data, h2.len, h2.names, h2.offLen, h2.offNames⟩⟩

theorem pointsOf_append {o g p : Obj V} (h : o.WF) {idxs : List Nat} {i : Nat}
    (hg : PointsOf o g idxs) (hp : PointsOf o p [i]) (hni : i ∉ idxs) (hi : i < o.pts.len)
    (hb : ∀ k ∈ idxs, k < o.pts.len) :
    ∃ r, g.insert .point none p = .ok r ∧ PointsOf o r (idxs ++ [i]) := by
  have hlen := h.pts.length_getNames
  have hdis : NamesDisjoint (g.axis .point).getNames (p.axis .point).getNames := by
    intro s hs hs'
    simp only [Obj.axis, hg.names, hp.names, mem_pick] at hs hs'
    obtain ⟨a, ha, ha'⟩ := hs
    obtain ⟨b, hb', hb''⟩ := hs'
    simp only [List.mem_singleton] at hb'
    subst hb'
    have e1 := (h.pts.getName_iff s a).1 ha'
    have e2 := (h.pts.getName_iff s b).1 hb''
    rw [e1] at e2
    have e3 : a = b := by
      have : (a : Int) = b := by simpa using e2
      omega
    exact hni (e3 ▸ ha)
  have hoffn : (g.axis Ax.point.off).getNames = (p.axis Ax.point.off).getNames := by
    show g.fts.getNames = p.fts.getNames
    rw [hg.fNames, hp.fNames]
  have hoffl : (g.axis Ax.point.off).len = (p.axis Ax.point.off).len := by
    show g.fts.len = p.fts.len
    rw [hg.fLen, hp.fLen]
  have hpos : insertPos (g.axis .point) none = .ok g.pts.len := rfl
  obtain ⟨r, hr⟩ := (C12_insert_accepts_iff hg.wf hp.wf .point hpos).2 ⟨hoffl, hdis, Or.inl hoffn⟩
  refine ⟨r, hr, ?_⟩
  obtain ⟨c, hc1, hc2, hc3, hc4⟩ := insertedAxis_spec (hg.wf.axisOk .point) (hp.wf.axisOk .point)
    hdis (Nat.le_refl _)
  have hal : alignNames g p .point = .ok p := by
    unfold alignNames
    simp [hoffn]
  unfold Obj.insert at hr
  simp only [hpos, bind, Except.bind] at hr
  cases hv : validateInsertable g p .point with
  | error e => rw [hv] at hr; cases hr
  | ok u =>
    have hc1' : insertedAxis (g.axis .point) (p.axis .point) g.pts.len = .ok c := hc1
    simp only [hv, hal, hc1', pure, Except.pure, Except.ok.injEq] at hr
    have hdata : r.data = g.data ++ p.data := by
      subst hr
      show insertData .point g.pts.len g.data p.data g.pts.len = _
      unfold insertData
      simp only [ne_eq, not_true_eq_false, and_false, if_false]
      split
      · next h0 =>
        have : g.data = [] := List.eq_nil_of_length_eq_zero (by rw [hg.wf.rows, h0])
        simp [this]
      · rfl
    have hpts : r.pts = c := by subst hr; rfl
    have hfts : r.fts = g.fts := by subst hr; rfl
    have hlen' : c.len = idxs.length + 1 := by
      rw [hc3]
      show g.pts.len + p.pts.len = _
      rw [hg.len, hp.len]; rfl
    refine ⟨⟨?_, ?_, by rw [hpts]; exact hc2, by rw [hfts]; exact hg.wf.fts⟩, ?_, ?_, ?_, ?_, ?_⟩
    · rw [hdata, hpts, hlen', List.length_append, hg.wf.rows, hp.wf.rows, hg.len, hp.len]; rfl
    · intro x hx
      rw [hdata, List.mem_append] at hx
      rw [hfts]
      rcases hx with hx | hx
      · exact hg.wf.cols x hx
      · rw [hp.wf.cols x hx, hp.fLen, hg.fLen]
    · rw [hdata, hg.data, hp.data, pick_append]
    · rw [hpts, hlen']; simp
    · rw [hpts, hc4, pick_append, ← hg.names, ← hp.names]
      have hgl : (g.axis .point).getNames.length = (g.axis .point).len := hg.wf.pts.length_getNames
      rw [List.take_of_length_le (Nat.le_of_eq hgl), List.drop_of_length_le (Nat.le_of_eq hgl),
        List.append_nil]
      rfl
    · rw [hfts]; exact hg.fLen
    · rw [hfts]; exact hg.fNames

/-- Invariant of the grouping loop after the points `seen`. -/
structure GroupInv (o : Obj V) (kf : Nat → List K) (seen : List Nat)
    (d : PyDict (List K) (Obj V)) : Prop where
  keys : PyDict.keys d = firstOcc (seen.map kf)
  groups : ∀ k g, PyDict.get? d k = some g → PointsOf o g (seen.filter (fun i => kf i = k))

theorem keys_set_new {α β : Type} [DecidableEq α] {d : PyDict α β} {k : α} {v : β}
    (h : k ∉ PyDict.keys d) : PyDict.keys (PyDict.set d k v) = PyDict.keys d ++ [k] := by
  rw [PyDict.set_of_not_mem h]; simp [PyDict.keys]

theorem groupLoop_ok {o : Obj V} (h : o.WF) {key : Nat → Res (List K)} {kf : Nat → List K}
    (hk : ∀ i < o.pts.len, key i = .ok (kf i)) :
    ∀ (todo seen : List Nat) (d : PyDict (List K) (Obj V)), (seen ++ todo).Nodup →
      (∀ i ∈ seen ++ todo, i < o.pts.len) → GroupInv o kf seen d →
      ∃ d', groupLoop o key todo d = .ok d' ∧ GroupInv o kf (seen ++ todo) d' := by
  intro todo
  induction todo with
  | nil => intro seen d _ _ hi; exact ⟨d, rfl, by simpa using hi⟩
  | cons i is ih =>
    intro seen d hn hb hi
    have hib : i < o.pts.len := hb i (by simp)
    have hni : i ∉ seen := by
      intro hc
      rw [List.nodup_append] at hn
      exact hn.2.2 i hc i (by simp) rfl
    obtain ⟨p, hp1, hp2⟩ := pointsOf_selected h hib
    have step : ∃ d', addToGroup d (kf i) p = .ok d' ∧ GroupInv o kf (seen ++ [i]) d' := by
      unfold addToGroup
      cases hg : PyDict.get? d (kf i) with
      | none =>
        have hnk : kf i ∉ PyDict.keys d := by
          rw [PyDict.mem_keys, hg]; simp
        refine ⟨_, rfl, ?_, ?_⟩
        · rw [keys_set_new hnk, hi.keys, List.map_append, List.map_singleton,
            firstOcc_append_singleton, if_neg]
          rw [hi.keys, mem_firstOcc] at hnk
          exact hnk
        · intro k g hkg
          rw [PyDict.get?_set] at hkg
          by_cases hkk : kf i = k
          · subst hkk
            simp only [if_true, Option.some.injEq] at hkg
            subst hkg
            have hnil : seen.filter (fun j => decide (kf j = kf i)) = [] := by
              rw [List.filter_eq_nil_iff]
              intro j hj hc
              apply hnk
              rw [hi.keys, mem_firstOcc]
              exact List.mem_map.2 ⟨j, hj, by simpa using hc⟩
            rw [List.filter_append, hnil]
            simpa using hp2
          · rw [if_neg hkk] at hkg
            rw [List.filter_append]
            simpa [hkk] using hi.groups k g hkg
      | some g =>
        obtain ⟨r, hr1, hr2⟩ := pointsOf_append h (hi.groups _ g hg) hp2
          (fun hc => hni (List.mem_of_mem_filter hc)) hib
          (fun j hj => hb j (by simp [List.mem_of_mem_filter hj]))
        have hmk : kf i ∈ PyDict.keys d := by rw [PyDict.mem_keys, hg]; rfl
        refine ⟨PyDict.set d (kf i) r, ?_, ?_, ?_⟩
        · simp only [hr1, Except.map]
        · rw [PyDict.keys_set_of_mem hmk, hi.keys, List.map_append, List.map_singleton,
            firstOcc_append_singleton, if_pos]
          rw [hi.keys, mem_firstOcc] at hmk
          exact hmk
        · intro k g' hkg
          rw [PyDict.get?_set] at hkg
          by_cases hkk : kf i = k
          · subst hkk
            simp only [if_true, Option.some.injEq] at hkg
            subst hkg
            rw [List.filter_append]
            simpa using hr2
          · rw [if_neg hkk] at hkg
            rw [List.filter_append]
            simpa [hkk] using hi.groups k g' hkg
    obtain ⟨d', hd1, hd2⟩ := step
    obtain ⟨d'', hd3, hd4⟩ := ih (seen ++ [i]) d' (by simpa using hn) (by simpa using hb) hd2
    refine ⟨d'', ?_, by simpa using hd4⟩
    simp only [groupLoop, hk i hib, hp1, hd1, bind, Except.bind, hd3]

/-- `g` consists of the points `idxs` of `o`, in that order and with their names, without the
features `cols`. -/
structure GroupOf (o g : Obj V) (idxs cols : List Nat) : Prop where
  wf : g.WF
  data : g.data = (pick o.data idxs).map (fun row => dropIdx row cols)
  names : g.pts.getNames = pick o.pts.getNames idxs
  fNames : g.fts.getNames = dropIdx o.fts.getNames cols

theorem resolve_congr {a b : AxisSt} (ha : a.Ok) (hb : b.Ok) (hl : a.len = b.len)
    (hn : a.getNames = b.getNames) {ids : List Ident} {l : List Nat}
    (h : resolveIdents a ids = .ok l) : resolveIdents b ids = .ok l := by
  rw [resolveIdents_ok_iff _ _ _ ha] at h
  rw [resolveIdents_ok_iff _ _ _ hb]
  have h2 : ∀ id ∈ ids, ∃ i : Nat, a.getIndex id = .ok (i : Int) := by
    intro id hid
    have : a.getIndex id ∈ l.map (fun (i : Nat) => (.ok (i : Int) : Res Int)) := by
      rw [← h]; exact List.mem_map.2 ⟨id, hid, rfl⟩
    obtain ⟨i, _, hi⟩ := List.mem_map.1 this
    exact ⟨i, hi.symm⟩
  rw [← h]
  apply List.map_congr_left
  intro id hid
  obtain ⟨i, hi⟩ := h2 id hid
  rw [hi, (getIndex_congr ha hb hl hn id i).1 hi]

theorem deleteBy_ok {samp : List Nat → Nat → List Nat} {o g : Obj V} (h : o.WF)
    {idxs cols : List Nat} {by' : GroupBy} (hg : PointsOf o g idxs)
    (hc : resolveIdents o.fts by'.idents = .ok cols) (hn : cols.Nodup) :
    ∃ g', deleteBy samp by' g = .ok g' ∧ GroupOf o g' idxs cols := by
  have hc' : resolveDistinct g.fts by'.idents = .ok cols :=
    (resolveDistinct_ok_iff _ _ _).2
      ⟨resolve_congr h.fts hg.wf.fts hg.fLen.symm hg.fNames.symm hc, hn⟩
  have hb : ∀ i ∈ cols, i < g.fts.len := by
    rw [hg.fLen]; exact resolveIdents_bound h.fts hc
  have ht : g.targets samp .feature { target := some by'.target } = .ok cols := by
    have hbase : g.baseTargets .feature { target := some by'.target } = .ok cols := by
      cases by' with
      | int i => exact hc'
      | list ids => exact hc'
      | name s =>
        have hname : g.fts.hasName s = .ok true := by
          obtain ⟨h1, _⟩ := (resolveDistinct_ok_iff _ _ _).1 hc'
          simp only [GroupBy.idents, resolveIdents] at h1
          obtain ⟨i, hi, _⟩ := Res.bind_ok.1 h1
          unfold AxisSt.hasName
          rw [hi]
        simp only [Obj.baseTargets, GroupBy.target, Obj.axis, hname, bind, Except.bind]
        exact hc'
    have hval : validateStructural ({ target := some by'.target } : Selector V) = .ok () := by
      cases by' <;> rfl
    unfold Obj.targets
    rw [hval]
    simp only [bind, Except.bind, hbase]
    rfl
  obtain ⟨ret, hr1, hr2⟩ := selected_spec hg.wf .feature hn hb
  have R := remaining_spec hg.wf .feature hn hb
  refine ⟨g.remaining .feature cols cols.length, ?_, R.wf, ?_, ?_, ?_⟩
  · unfold deleteBy Obj.delete
    simp only [ht, hr1, bind, Except.bind, pure, Except.pure, Except.map, hr2.len]
  · rw [R.data, hg.data]
    show (pick o.data idxs).map _ = _
    apply List.map_congr_left
    intro row hrow
    have hrl : row.length = g.fts.len := by
      apply hg.wf.cols; rw [hg.data]; exact hrow
    unfold dropIdx
    rw [hrl]; rfl
  · have := R.offNames
    rw [← hg.names]; exact this
  · have := R.names
    rw [← hg.fNames]
    unfold dropIdx
    rw [hg.wf.fts.length_getNames]
    exact this

theorem deleteAll_ok {samp : List Nat → Nat → List Nat} {o : Obj V} (h : o.WF) {cols : List Nat}
    {by' : GroupBy} (hc : resolveIdents o.fts by'.idents = .ok cols) (hn : cols.Nodup)
    (idxOf : List K → List Nat) :
    ∀ (d : PyDict (List K) (Obj V)), (∀ kg ∈ d, PointsOf o kg.2 (idxOf kg.1)) →
      ∃ d', deleteAll samp by' d = .ok d' ∧ PyDict.keys d' = PyDict.keys d ∧
        ∀ kg ∈ d', GroupOf o kg.2 (idxOf kg.1) cols := by
  intro d
  induction d with
  | nil => intro _; exact ⟨[], rfl, rfl, by simp⟩
  | cons kg rest ih =>
    intro hd
    obtain ⟨g', h1, h2⟩ := deleteBy_ok (samp := samp) h (hd kg (by simp)) hc hn
    obtain ⟨r, h3, h4, h5⟩ := ih (fun x hx => hd x (by simp [hx]))
    refine ⟨(kg.1, g') :: r, ?_, ?_, ?_⟩
    · simp only [deleteAll, h1, h3, bind, Except.bind, pure, Except.pure]
    · simp only [PyDict.keys, List.map_cons] at h4 ⊢; rw [h4]
    · intro x hx
      rcases List.mem_cons.1 hx with rfl | hx
      · exact h2
      · exact h5 x hx

/-- **C31 (groups).**  If `by` denotes the distinct features `cols` and no key computation raises,
groupByFeature returns one group per distinct key, in order of first occurrence; the group of key
`k` consists of exactly the points with that key, in the original order and with their names,
without the grouping features. -/
theorem C31_groupByFeature {samp : List Nat → Nat → List Nat} {o : Obj V} (h : o.WF)
    {prettyKey : V → Res K} {by' : GroupBy} {cols : List Nat}
    (hc : resolveIdents o.fts by'.idents = .ok cols) (hn : cols.Nodup) {kf : Nat → List K}
    (hk : ∀ i < o.pts.len, o.findKey prettyKey by' i = .ok (kf i)) :
    ∃ d, o.groupByFeature samp prettyKey by' = .ok d ∧
      PyDict.keys d = firstOcc ((List.range o.pts.len).map kf) ∧
      ∀ k g, (k, g) ∈ d →
        GroupOf o g ((List.range o.pts.len).filter (fun i => kf i = k)) cols := by
  obtain ⟨d, h1, h2⟩ := groupLoop_ok h hk (List.range o.pts.len) [] [] (by simpa using List.nodup_range)
    (by simp) ⟨rfl, by intro k g hg; simp [PyDict.get?] at hg⟩
  simp only [List.nil_append] at h2
  have hnk : (PyDict.keys d).Nodup := by rw [h2.keys]; exact nodup_firstOcc _
  obtain ⟨d', h3, h4, h5⟩ := deleteAll_ok (samp := samp) h hc hn
    (fun k => (List.range o.pts.len).filter (fun i => kf i = k)) d
    (fun kg hkg => h2.groups kg.1 kg.2 (PyDict.get?_of_mem hnk hkg))
  refine ⟨d', ?_, by rw [h4, h2.keys], fun k g hkg => h5 (k, g) hkg⟩
  unfold groupByFeature
  simp only [h1, bind, Except.bind, h3]

/-- **C31 (partition).**  The points of the groups are all points, each exactly once. -/
theorem C31_groups_partition (n : Nat) (kf : Nat → List K) :
    ((firstOcc ((List.range n).map kf)).flatMap
      (fun k => (List.range n).filter (fun i => kf i = k))).Perm (List.range n) := by
  have := flatten_groups_perm (l := (List.range n).map (fun i => (kf i, i)))
    (ks := firstOcc ((List.range n).map kf)) (nodup_firstOcc _) (by
      intro p hp
      rw [mem_firstOcc]
      obtain ⟨i, hi, rfl⟩ := List.mem_map.1 hp
      exact List.mem_map.2 ⟨i, hi, rfl⟩)
  have e : ∀ k, (((List.range n).map (fun i => (kf i, i))).filter (fun p => decide (p.1 = k))).map Prod.snd =
      (List.range n).filter (fun i => kf i = k) := by
    intro k
    rw [List.filter_map, List.map_map]
    simp [Function.comp_def]
  simp only [e, List.map_map, Function.comp_def, List.map_id'] at this
  simpa [List.flatMap_def] using this

theorem countLoop_ok {key : Nat → Res (List K)} {kf : Nat → List K} {n : Nat}
    (hk : ∀ i < n, key i = .ok (kf i)) :
    ∀ (todo seen : List Nat), (∀ i ∈ seen ++ todo, i < n) →
      countLoop key todo ((firstOcc (seen.map kf)).map
        (fun k => (k, (seen.filter (fun i => kf i = k)).length))) =
      .ok ((firstOcc ((seen ++ todo).map kf)).map
        (fun k => (k, ((seen ++ todo).filter (fun i => kf i = k)).length))) := by
  intro todo
  induction todo with
  | nil => intro seen _; simp [countLoop]
  | cons i is ih =>
    intro seen hb
    have hib := hb i (by simp)
    have step : countKey ((firstOcc (seen.map kf)).map
        (fun k => (k, (seen.filter (fun i => kf i = k)).length))) (kf i) =
        (firstOcc ((seen ++ [i]).map kf)).map
        (fun k => (k, ((seen ++ [i]).filter (fun i => kf i = k)).length)) := by
      unfold countKey
      rw [get?_mapKeys, List.map_append, List.map_singleton, firstOcc_append_singleton]
      by_cases hm : kf i ∈ seen.map kf
      · rw [if_pos (mem_firstOcc.2 hm), if_pos hm]
        simp only []
        rw [set_mapKeys_mem (nodup_firstOcc _) _ (mem_firstOcc.2 hm)]
        apply List.map_congr_left
        intro k _
        by_cases hk : k = kf i
        · subst hk; simp
        · rw [if_neg hk]; simp [Ne.symm hk]
      · rw [if_neg (fun hc => hm (mem_firstOcc.1 hc)), if_neg hm]
        simp only []
        rw [set_mapKeys_notMem _ (fun hc => hm (mem_firstOcc.1 hc)), List.map_append]
        congr 1
        · apply List.map_congr_left
          intro k hk
          have : kf i ≠ k := fun e => hm (e ▸ mem_firstOcc.1 hk)
          simp [this]
        · have : seen.filter (fun j => decide (kf j = kf i)) = [] := by
            rw [List.filter_eq_nil_iff]
            intro j hj hc
            exact hm (List.mem_map.2 ⟨j, hj, by simpa using hc⟩)
          simp [this]
    simp only [countLoop, hk i hib, bind, Except.bind, step]
    have := ih (seen ++ [i]) (by simpa using hb)
    simpa using this

/-- **C31 (counts).**  countUniqueValueOnly gives, for the same keys in the same order, the number
of points of each group. -/
theorem C31_groupCount {o : Obj V} {prettyKey : V → Res K} {by' : GroupBy} {kf : Nat → List K}
    (hk : ∀ i < o.pts.len, o.findKey prettyKey by' i = .ok (kf i)) :
    o.groupCount prettyKey by' = .ok ((firstOcc ((List.range o.pts.len).map kf)).map
      (fun k => (k, ((List.range o.pts.len).filter (fun i => kf i = k)).length))) := by
  have := countLoop_ok hk (List.range o.pts.len) [] (by simp)
  unfold groupCount
  simpa [firstOcc] using this

/-- The key of a point consists of the keys of its values at the grouping features. -/
theorem C31_key {o : Obj V} {pk : V → K} {by' : GroupBy} {cols : List Nat}
    (hc : resolveIdents o.fts by'.idents = .ok cols) (i : Nat) :
    o.findKey (fun v => .ok (pk v)) by' i = .ok ((pick (o.vector .point i) cols).map pk) := by
  unfold findKey
  simp only [hc, bind, Except.bind]
  generalize pick (o.vector .point i) cols = vs
  induction vs with
  | nil => rfl
  | cons v vs ih => simp [findKeyVals, ih, bind, Except.bind, pure, Except.pure]

/-- Different texts and numbers get different keys, equal ones equal keys. -/
theorem C31_prettyKey_faithful (b : Bool) {v w : GVal} (hv : v ≠ .npNan ∧ v ≠ .freshNan)
    (hw : w ≠ .npNan ∧ w ≠ .freshNan) : prettyKey b v = prettyKey b w ↔ v = w := by
  cases v <;> cases w <;> simp_all [prettyKey]

/-- An object with a missing value in the grouping feature, as read from a float array. -/
def gbObj (v : GVal) : Obj GVal := ⟨[[v, .num 1], [.text "numpy.nan", .num 2], [.text "NaN", .num 3]],
  ⟨3, none⟩, ⟨2, none⟩⟩

/-- **C31 violated (missing values).**  A missing value read from a float array makes the whole
call raise, and the key made for `np.nan` can be the key of a text, so two different values fall
into one group. -/
theorem C31_groupByFeature_missing_violated (samp : List Nat → Nat → List Nat) :
    (gbObj .freshNan).groupByFeature samp (prettyKey true) (.int 0) = .error .ValueError ∧
    (∃ d, (gbObj .npNan).groupCount (prettyKey true) (.int 0) = .ok d ∧
      PyDict.get? d [.text "numpy.nan"] = some 2) := ⟨rfl, _, rfl, rfl⟩

/-- The hypotheses of `C31_groupByFeature` are met by a three point object. -/
example (samp : List Nat → Nat → List Nat) :
    ∃ d, (gbObj (.text "NaN")).groupByFeature samp (prettyKey true) (.int 0) = .ok d ∧
      d.map (fun kg => (kg.1, kg.2.data)) =
        [([.text "NaN"], [[.num 1], [.num 3]]), ([.text "numpy.nan"], [[.num 2]])] := ⟨_, rfl, rfl⟩

end Obj
end Nimble
