import Verif.Model.AxisStats
import Verif.Props.Calculate
import Verif.Lemmas.NameChecks
import Mathlib.Tactic.ByContra

/-!
# C105: statistics of points and features
-/

namespace Nimble
namespace AxisStats
variable {V W K : Type} [DecidableEq K]

/-! ## Specification -/

/-- `r` holds the statistic `s` of every point (feature) of `o` under the name of the point (feature), and
along the other axis the given names. -/
structure IsStatistics (fn : Stat → AxView V → Res (List W)) (s : Stat) (o : Obj V) (ax : Ax)
    (names : List String) (r : Obj W) : Prop where
  wf : r.WF
  number : (r.axis ax).len = (o.axis ax).len
  width : (r.axis ax.off).len = names.length
  values : ∀ i, i < (o.axis ax).len → fn s (o.view ax none i) = .ok (r.vector ax i)
  sameNames : (r.axis ax).getNames = (o.axis ax).getNames
  offNames : (r.axis ax.off).getNames = names.map some

/-- The functions return one number, `quartiles` three. -/
def statWidth (s : Stat) : Nat := if s = .quartiles then 3 else 1

/-- The names of the results. -/
def statNames (name : String) (s : Stat) : List String :=
  if s = .quartiles then ["quartile1", "quartile2", "quartile3"] else [name]

/-- `fn s` succeeds for all points (features) and returns as many numbers as it should. -/
def Succeeds (fn : Stat → AxView V → Res (List W)) (s : Stat) (o : Obj V) (ax : Ax) : Prop :=
  ∀ i, i < (o.axis ax).len → ∃ l, fn s (o.view ax none i) = .ok l ∧ l.length = statWidth s

/-- A name without its whitespace and in lower case. -/
def squeezed (s : String) : List Char := (s.toList.map Char.toLower).filter (fun c => !c.isWhitespace)

/-- Two names are equal up to case and whitespace. -/
def SameName (a b : String) : Prop := squeezed a = squeezed b

instance (a b : String) : Decidable (SameName a b) := inferInstanceAs (Decidable (_ = _))

/-- The names of the documentation (features.py:2503-2507) and the other accepted ones, with the function
they stand for. -/
def meaning : List (String × Stat) :=
  [("max", .maximum), ("mean", .mean), ("median", .median), ("min", .minimum),
    ("population std", .standardDeviation false), ("population standard deviation", .standardDeviation false),
    ("proportion missing", .proportionMissing), ("proportion zero", .proportionZero),
    ("sample standard deviation", .standardDeviation true), ("sample std", .standardDeviation true),
    ("standard deviation", .standardDeviation true), ("std", .standardDeviation true),
    ("unique count", .uniqueCount), ("mode", .mode), ("sum", .sum), ("variance", .variance),
    ("median absolute deviation", .medianAbsoluteDeviation), ("quartiles", .quartiles)]

/-! ## Lemmas -/

theorem clean_eq (s : String) : clean s = String.ofList (squeezed s) := rfl

theorem sameName_iff (a b : String) : SameName a b ↔ clean a = clean b := by
  rw [clean_eq, clean_eq, String.ofList_inj]
  exact Iff.rfl

theorem meaning_ok {name : String} {p : String × Stat} (hp : p ∈ meaning) (he : SameName name p.1) :
    validateInput name = .ok (clean name) ∧ statFunction (clean name) = .ok p.2 := by
  rw [sameName_iff] at he
  unfold validateInput
  rw [he]
  have h1 : ∀ q ∈ meaning, clean q.1 ∈ acceptedStats.map clean := by decide +kernel
  have h2 : ∀ q ∈ meaning, statFunction (clean q.1) = .ok q.2 := by decide +kernel
  rw [if_pos (h1 p hp)]
  exact ⟨rfl, h2 p hp⟩

theorem calcLoop_total {f : AxView V → Res (Obj.CalcOut W)} {o : Obj V} {ax : Ax} {w : Nat} :
    ∀ {idx : List Nat}, (∀ i ∈ idx, ∃ l : List W, f (o.view ax none i) = .ok ⟨l, none⟩ ∧ l.length = w) →
    ∃ outs, Obj.calcLoop f o ax idx = .ok outs ∧ outs.length = idx.length ∧
      ∀ out ∈ outs, out.vals.length = w ∧ out.names = none
  | [], _ => ⟨[], rfl, rfl, by simp⟩
  | i :: idx, h => by
    obtain ⟨l, h1, h2⟩ := h i List.mem_cons_self
    obtain ⟨outs, h3, h4, h5⟩ := calcLoop_total (fun j hj => h j (List.mem_cons_of_mem _ hj))
    refine ⟨⟨l, none⟩ :: outs, ?_, by simp [h4], ?_⟩
    · simp only [Obj.calcLoop, h1, h3, bind, Except.bind, pure, Except.pure]
    · intro out ho
      rcases List.mem_cons.1 ho with rfl | ho
      · exact ⟨h2, rfl⟩
      · exact h5 out ho

theorem calcObject_total {ax : Ax} {rows : List (List W)} {w : Nat} (hne : rows ≠ [])
    (h : ∀ row ∈ rows, row.length = w) : ∃ r, Obj.calcObject ax rows = .ok r ∧
      r.axis ax = ⟨rows.length, none⟩ ∧ r.axis ax.off = ⟨w, none⟩ := by
  have hw : (rows.head?.map List.length).getD 0 = w := by
    cases rows with
    | nil => exact absurd rfl hne
    | cons row rows => simp [h row List.mem_cons_self]
  unfold Obj.calcObject
  rw [hw]
  have : rows.all (fun r => r.length == w) = true := by
    rw [List.all_eq_true]
    intro r hr
    simpa using h r hr
  simp only [this, if_true]
  cases ax with
  | point => exact ⟨_, rfl, rfl, rfl⟩
  | feature => exact ⟨_, rfl, rfl, rfl⟩

theorem setNames_total {a : AxisSt} {l : List (Option String)} (h1 : l.length = a.len)
    (h2 : l.reduceOption.Nodup) : ∃ a', a.setNames (.list l) = .ok a' ∧ a'.Ok ∧ a'.len = a.len ∧ a'.getNames = l := by
  have h := setNames_list_eq a l
  rw [if_pos ⟨h1, h2⟩] at h
  obtain ⟨_, _, _, h4⟩ := setNames_list_ok h
  exact ⟨_, h, h4, rfl, rfl⟩

theorem calculate_total {f : AxView V → Res (Obj.CalcOut W)} {o : Obj V} {ax : Ax} {w : Nat} (ho : o.WF)
    (hp : o.pts.len ≠ 0) (hf : o.fts.len ≠ 0)
    (h : ∀ i, i < (o.axis ax).len → ∃ l : List W, f (o.view ax none i) = .ok ⟨l, none⟩ ∧ l.length = w) :
    ∃ r, Obj.calculate f o ax none = .ok r ∧ r.axis ax.off = ⟨w, none⟩ := by
  obtain ⟨outs, h1, h2, h3⟩ := calcLoop_total (f := f) (o := o) (ax := ax) (w := w)
    (idx := List.range (o.axis ax).len) (fun i hi => h i (List.mem_range.1 hi))
  have hne : outs.map Obj.CalcOut.vals ≠ [] := by
    intro e
    have := congrArg List.length e
    rw [List.length_map, h2, List.length_range] at this
    cases ax
    · exact hp this
    · exact hf this
  obtain ⟨ret, h4, h5, h6⟩ := calcObject_total (ax := ax) hne (w := w) (by
    intro row hr
    obtain ⟨out, ho', rfl⟩ := List.mem_map.1 hr
    exact (h3 out ho').1)
  rw [List.length_map, h2, List.length_range] at h5
  have hoff : ∀ a, ((ret.setAxis ax a).axis ax.off) = ⟨w, none⟩ := by
    intro a
    rw [← h6]
    cases ax <;> rfl
  have hnm : outs.head?.bind Obj.CalcOut.names = none := by
    cases outs with
    | nil => rfl
    | cons out outs => exact (h3 out List.mem_cons_self).2
  have hset : ∃ a, Obj.setOptNames (ret.axis ax) (Obj.calcNames (o.axis ax) (List.range (o.axis ax).len)) = .ok a := by
    unfold Obj.calcNames
    rw [List.length_range, if_neg (by simp)]
    split
    · obtain ⟨a, ha, _⟩ := setNames_total (a := ret.axis ax) (l := (o.axis ax).getNames)
        (by rw [h5, (ho.axisOk ax).length_getNames]) (ho.axisOk ax).reduceOption_nodup
      exact ⟨a, ha⟩
    · exact ⟨_, rfl⟩
  obtain ⟨a, ha⟩ := hset
  refine ⟨(ret.setAxis ax a).setAxis ax.off ⟨w, none⟩, ?_, ?_⟩
  · unfold Obj.calculate
    rw [if_neg hp, if_neg hf]
    have hno : Obj.setOptNames (⟨w, none⟩ : AxisSt) none = .ok ⟨w, none⟩ := rfl
    simp only [Obj.calcIndices, h1, h4, ha, hoff, hnm, hno, bind, Except.bind, pure, Except.pure]
  · cases ax <;> rfl

theorem resultNames_partial (name : String) :
    ∃ a, AxisSt.setNamesPartial ⟨(resultNames name).length, none⟩ (resultNames name) (resultIdents name) =
      (a, .ok ()) ∧ a.Ok ∧ a.len = (resultNames name).length ∧ a.getNames = resultNames name := by
  unfold resultNames resultIdents
  by_cases h : name = "quartiles"
  · simp only [if_pos h]
    exact ⟨⟨3, some ⟨namedPairs 0 [some "quartile1", some "quartile2", some "quartile3"],
      [some "quartile1", some "quartile2", some "quartile3"]⟩⟩, by decide, mk_ok rfl (by decide), rfl, rfl⟩
  · simp only [if_neg h]
    exact ⟨⟨1, some ⟨namedPairs 0 [some name], [some name]⟩⟩, rfl, mk_ok rfl (by simp [List.reduceOption]), rfl, rfl⟩

theorem ite_skip {c : Prop} [Decidable c] {a x y : Res Stat} (hne : x ≠ y) (h : (if c then x else a) = y) :
    a = y := by
  split at h
  · exact absurd h hne
  · exact h

theorem statFunction_quartiles {name : String} {s : Stat} (h : statFunction name = .ok s) :
    s = .quartiles ↔ name = "quartiles" := by
  constructor
  · rintro rfl
    unfold statFunction at h
    by_contra hne
    iterate 10 replace h := ite_skip (by simp) h
    rw [if_neg hne] at h
    iterate 3 replace h := ite_skip (by simp) h
    cases h
  · rintro rfl
    have : statFunction "quartiles" = .ok .quartiles := by decide +kernel
    rw [this] at h
    cases h
    rfl

theorem backend_ok {fn : Stat → AxView V → Res (List W)} {o : Obj V} {ax : Ax} (ho : o.WF)
    (hp : o.pts.len ≠ 0) (hf : o.fts.len ≠ 0) {name : String} {s : Stat} (hs : s = .quartiles ↔ name = "quartiles")
    (h : Succeeds fn s o ax) :
    ∃ r, statisticsBackend fn o ax name s = .ok r ∧ IsStatistics fn s o ax (statNames name s) r := by
  have hw : statWidth s = (resultNames name).length := by
    unfold statWidth resultNames
    by_cases hq : name = "quartiles"
    · rw [if_pos (hs.2 hq), if_pos hq]; rfl
    · rw [if_neg (fun e => hq (hs.1 e)), if_neg hq]; rfl
  have hn : resultNames name = (statNames name s).map some := by
    unfold statNames resultNames
    by_cases hq : name = "quartiles"
    · rw [if_pos (hs.2 hq), if_pos hq]; rfl
    · rw [if_neg (fun e => hq (hs.1 e)), if_neg hq]; rfl
  obtain ⟨r, hr, hoff⟩ := calculate_total (f := statOut fn s) (w := statWidth s) ho hp hf (by
    intro i hi
    obtain ⟨l, h1, h2⟩ := h i hi
    exact ⟨l, by unfold statOut; rw [h1]; rfl, h2⟩)
  obtain ⟨idx, hd, hwf, hlen, hvals, _⟩ := Obj.C51_calculate_values hr
  have hidx : idx = List.range (o.axis ax).len := by
    rcases hd with ⟨_, e⟩ | ⟨_, e, _⟩
    · exact e
    · cases e
  subst hidx
  rw [List.length_range] at hlen
  obtain ⟨a, h1, h2, h3, h4⟩ := setNames_total (a := r.axis ax) (l := (o.axis ax).getNames)
    (by rw [hlen, (ho.axisOk ax).length_getNames]) (ho.axisOk ax).reduceOption_nodup
  obtain ⟨b, h5, h6, h7, h8⟩ := resultNames_partial name
  have hoff' : (r.setAxis ax a).axis ax.off = ⟨(resultNames name).length, none⟩ := by
    rw [← hw, ← hoff]
    cases ax <;> rfl
  have hax : ((r.setAxis ax a).setAxis ax.off b).axis ax = a := by cases ax <;> rfl
  have hof : ((r.setAxis ax a).setAxis ax.off b).axis ax.off = b := by cases ax <;> rfl
  have hol : (r.axis ax.off).len = b.len := by rw [hoff, h7, hw]
  refine ⟨(r.setAxis ax a).setAxis ax.off b, ?_, ?_⟩
  · simp only [statisticsBackend, hr, setNamesOn, setNamesAt, h1, Except.map, hoff', h5, bind, Except.bind]
  · constructor
    · cases ax
      · exact ⟨hwf.rows.trans h3.symm, fun r hr => (hwf.cols r hr).trans hol, h2, h6⟩
      · exact ⟨hwf.rows.trans hol, fun r hr => (hwf.cols r hr).trans h3.symm, h6, h2⟩
    · rw [hax, h3, hlen]
    · rw [hof, h7, hn, List.length_map]
    · intro i hi
      obtain ⟨out, h9, h10⟩ := hvals i i (List.getElem?_range hi)
      have hv : ((r.setAxis ax a).setAxis ax.off b).vector ax i = r.vector ax i := by cases ax <;> rfl
      rw [hv, h10]
      unfold statOut at h9
      cases hfn : fn s (o.view ax none i) with
      | error e => rw [hfn] at h9; cases h9
      | ok l => rw [hfn] at h9; cases h9; rfl
    · rw [hax, h4]
    · rw [hof, h8, hn]

/-! ## Theorems -/

/-- C105. For an object with points and features and an accepted name, the result has, for every point
(feature), the statistic of exactly that point (feature) under its name, and along the other axis the name
of the statistic in lower case and without whitespace, or 'quartile1' to 'quartile3'. -/
theorem C105_statistics (fn : Stat → AxView V → Res (List W)) {o : Obj V} (ho : o.WF) (ax : Ax)
    (hp : o.pts.len ≠ 0) (hf : o.fts.len ≠ 0) {name : String} {p : String × Stat} (hm : p ∈ meaning)
    (he : SameName name p.1) (h : Succeeds fn p.2 o ax) :
    ∃ r, statistics fn o ax name = .ok r ∧
      IsStatistics fn p.2 o ax (statNames (String.ofList (squeezed name)) p.2) r := by
  obtain ⟨hv, hs⟩ := meaning_ok hm he
  obtain ⟨r, h1, h2⟩ := backend_ok ho hp hf (statFunction_quartiles hs) h
  refine ⟨r, ?_, h2⟩
  simp only [statistics, hv, hs, h1, bind, Except.bind]

/-- C105. Names which are not equal to one of `meaning`, up to case and whitespace, are refused, whatever
the object; the others are accepted and stand for their functions. Missing: 'count'. -/
theorem C105_names_partial (name : String) :
    (∀ p ∈ meaning, SameName name p.1 →
      validateInput name = .ok (String.ofList (squeezed name)) ∧
      statFunction (String.ofList (squeezed name)) = .ok p.2) ∧
    ((∀ p ∈ meaning, ¬ SameName name p.1) → ¬ SameName name "count" →
      ∀ (fn : Stat → AxView V → Res (List W)) (o : Obj V) (ax : Ax),
        statistics fn o ax name = .error .InvalidArgumentValue) := by
  refine ⟨fun p hp he => meaning_ok hp he, ?_⟩
  intro h hc fn o ax
  have hv : validateInput name = .error .InvalidArgumentValue := by
    unfold validateInput
    rw [if_neg]
    intro hm
    have h1 : ∀ n ∈ acceptedStats.map clean, n = clean "count" ∨ ∃ q ∈ meaning, n = clean q.1 := by
      decide +kernel
    rcases h1 _ hm with e | ⟨q, hq, e⟩
    · exact hc ((sameName_iff _ _).2 e)
    · exact h q hq ((sameName_iff _ _).2 e)
  simp only [statistics, hv, bind, Except.bind]

/-- C105 is violated by the code: 'count' is among the names which are accepted, but has no function:
`ValueError` for every object. -/
theorem C105_count_violated (fn : Stat → AxView V → Res (List W)) (o : Obj V) (ax : Ax) :
    "count" ∈ acceptedStats ∧ validateInput "count" = .ok "count" ∧
    statistics fn o ax "count" = .error .ValueError := by
  have h1 : validateInput "count" = .ok "count" := by decide +kernel
  have h2 : statFunction "count" = .error .ValueError := by decide +kernel
  refine ⟨by decide, h1, ?_⟩
  simp only [statistics, h1, h2, bind, Except.bind]

/-- C105. An object without points or features has no statistics. -/
theorem C105_empty (fn : Stat → AxView V → Res (List W)) (o : Obj V) (ax : Ax) {name : String}
    {p : String × Stat} (hm : p ∈ meaning) (he : SameName name p.1) (h : o.pts.len = 0 ∨ o.fts.len = 0) : statistics fn o ax name = .error .ImproperObjectAction := by
  obtain ⟨hv, hs⟩ := meaning_ok hm he
  have : Obj.calculate (statOut fn p.2) o ax none = .error .ImproperObjectAction := by
    unfold Obj.calculate
    by_cases hp : o.pts.len = 0
    · rw [if_pos hp]
    · rw [if_neg hp, if_pos (h.resolve_left hp)]
  simp only [statistics, hv, hs, statisticsBackend, this, bind, Except.bind]

/-- C105. The methods `max()`, `mean()`, … are `statistics` of the name in `acceptedStats`. -/
theorem C105_methods (fn : Stat → AxView V → Res (List W)) (o : Obj V) (ax : Ax) :
    ∀ m ∈ methods, method fn o ax m = statistics fn o ax m.2.1 := by
  intro m hm
  have h : ∀ q ∈ methods, validateInput q.2.1 = .ok q.2.1 ∧ statFunction q.2.1 = .ok q.2.2 := by decide +kernel
  obtain ⟨h1, h2⟩ := h m hm
  simp only [method, statistics, h1, h2, bind, Except.bind]

theorem groupStats_ok {fn : Stat → AxView V → Res (List W)} {name : String} {s : Stat} :
    ∀ {g : PyDict (List K) (Obj V)} {d : PyDict (List K) (Obj W)}, groupStats fn name s g = .ok d →
      d.map Prod.fst = g.map Prod.fst ∧ ∀ (j : Nat) k o', g[j]? = some (k, o') →
        ∃ r, d[j]? = some (k, r) ∧ statisticsBackend fn o' .feature name s = .ok r
  | [], d, h => by
    cases h
    exact ⟨rfl, by simp⟩
  | (k, o') :: g, d, h => by
    simp only [groupStats] at h
    obtain ⟨r, h1, h⟩ := Res.bind_ok.1 h
    obtain ⟨rs, h2, h⟩ := Res.bind_ok.1 h
    cases h
    obtain ⟨h3, h4⟩ := groupStats_ok h2
    refine ⟨by simp [h3], ?_⟩
    intro j k' o'' hj
    cases j with
    | zero => simp at hj; obtain ⟨rfl, rfl⟩ := hj; exact ⟨r, by simp, h1⟩
    | succ j => simpa using h4 j k' o'' (by simpa using hj)

/-- C105. `features.statistics(name, groupByFeature)` has the keys of `groupByFeature` in their order, and
for every key the statistics of the features of its group. -/
theorem C105_groups (fn : Stat → AxView V → Res (List W)) (samp : List Nat → Nat → List Nat)
    (prettyKey : V → Res K) {o : Obj V} {name : String} {by' : GroupBy} {d : PyDict (List K) (Obj W)}
    (h : statisticsBy fn samp prettyKey o name by' = .ok d) :
    ∃ g, o.groupByFeature samp prettyKey by' = .ok g ∧ d.map Prod.fst = g.map Prod.fst ∧
      ∀ (j : Nat) k o', g[j]? = some (k, o') →
        ∃ r, d[j]? = some (k, r) ∧ statistics fn o' .feature name = .ok r := by
  unfold statisticsBy at h
  obtain ⟨c, h1, h⟩ := Res.bind_ok.1 h
  obtain ⟨s, h2, h⟩ := Res.bind_ok.1 h
  obtain ⟨g, h3, h⟩ := Res.bind_ok.1 h
  obtain ⟨h4, h5⟩ := groupStats_ok h
  refine ⟨g, h3, h4, ?_⟩
  intro j k o' hj
  obtain ⟨r, h6, h7⟩ := h5 j k o' hj
  refine ⟨r, h6, ?_⟩
  simp only [statistics, h1, h2, h7, bind, Except.bind]

/-- C105. `groupByFeature(by, calculate=name)` returns the same as `features.statistics(name, groupByFeature=by)`. -/
theorem C105_groupByFeature_calculate (fn : Stat → AxView V → Res (List W)) (samp : List Nat → Nat → List Nat)
    (prettyKey : V → Res K) (o : Obj V) (name : String) (by' : GroupBy) (d : PyDict (List K) (Obj W)) :
    groupByCalculate fn samp prettyKey o name by' = .ok d ↔ statisticsBy fn samp prettyKey o name by' = .ok d := by
  simp only [groupByCalculate, statisticsBy, bind, Except.bind]
  cases o.groupByFeature samp prettyKey by' <;> cases validateInput name <;> try simp
  all_goals first
    | done
    | (cases statFunction _ <;> simp)

/-! ## Concrete cases -/

/-- The sum for every statistic, three times for quartiles. -/
def exFn (s : Stat) (v : AxView Nat) : Res (List Nat) := .ok (List.replicate (statWidth s) v.vals.sum)

/-- A case of `C105_statistics`. -/
example : ∃ r, statistics exFn Obj.calcEx .point " Sample  STD" = .ok r ∧
    IsStatistics exFn (.standardDeviation true) Obj.calcEx .point ["samplestd"] r := by
  have h := C105_statistics exFn Obj.calcEx_WF .point (by decide) (by decide) (name := " Sample  STD")
    (p := ("sample std", .standardDeviation true)) (by decide) (by decide +kernel) (by
    intro i _
    exact ⟨_, rfl, List.length_replicate⟩)
  have e : statNames (String.ofList (squeezed " Sample  STD")) (.standardDeviation true) = ["samplestd"] := by
    decide +kernel
  dsimp only at h
  rwa [e] at h

example : (statistics exFn Obj.calcEx .feature "quartiles").toOption.map (fun r => (r.data, r.pts.getNames, r.fts.getNames))
    = some ([[4, 6], [4, 6], [4, 6]], [some "quartile1", some "quartile2", some "quartile3"], [none, none]) := by
  decide +kernel

/-- A case of `C105_groups`: two groups of the first feature. -/
def exBy : Obj Nat := ⟨[[1, 2], [1, 3], [5, 4]], ⟨3, none⟩, ⟨2, none⟩⟩

example : (statisticsBy exFn (fun l n => l.take n) (fun v : Nat => (.ok v : Res Nat)) exBy "sum" (.int 0)).toOption.map
    (fun d => d.map (fun p => (p.1, p.2.data))) = some [([1], [[5]]), ([5], [[4]])] := by decide +kernel

end AxisStats
end Nimble
