import Verif.Model.AxisReplace
import Verif.Props.Transform
import Verif.Props.History
import Verif.Lemmas.Permute
import Verif.Lemmas.Targets

/-!
# C82: points.replace and features.replace
-/

namespace Nimble.Obj
variable {V : Type}

/-! ## Specification -/

/-- `o'` is `o` with the points (features) `idx` replaced by those of `d` in order: shape and names are those of `o`,
all other points are unchanged; if an index occurs more than once the last one counts. -/
structure AxisReplaced (o o' d : Obj V) (ax : Ax) (idx : List Nat) : Prop where
  wf : o'.WF
  pts : o'.pts = o.pts
  fts : o'.fts = o.fts
  count : idx.length = (d.axis ax).len
  bound : ∀ i ∈ idx, i < (o.axis ax).len
  written : ∀ (k i : Nat), idx[k]? = some i → (∀ k', k < k' → idx[k']? ≠ some i) → o'.vector ax i = d.vector ax k
  kept : ∀ i, i < (o.axis ax).len → i ∉ idx → o'.vector ax i = o.vector ax i

/-! ## Lemmas -/

private theorem axis_congr {o o' : Obj V} (h1 : o'.pts = o.pts) (h2 : o'.fts = o.fts) (ax : Ax) :
    o'.axis ax = o.axis ax := by
  cases ax <;> assumption

private theorem resolve_int {a : AxisSt} {i : Nat} (hi : i < a.len) : resolveIdents a [.int i] = .ok [i] := by
  have : a.getIndex (.int (i : Int)) = .ok (i : Int) := by
    rw [C04_getIndex_int]
    omega
  simp [resolveIdents, this, bind, Except.bind, pure, Except.pure]

/-- One replacement of the right length. -/
theorem step_ok {o : Obj V} (h : o.WF) {ax : Ax} {i : Nat} {v : List V} (hi : i < (o.axis ax).len)
    (hp : o.pts.len ≠ 0) (hf : o.fts.len ≠ 0) (hv : v.length = (o.axis ax.off).len) :
    ∃ o', transform (fun _ => .ok v) o ax (some [.int i]) = (o', .ok ()) ∧ o'.WF ∧ o'.pts = o.pts ∧ o'.fts = o.fts ∧
      ∀ j, j < (o.axis ax).len → o'.vector ax j = if j = i then v else o.vector ax j := by
  have hd : Denotes (o.axis ax) (some [.int i]) (fun j => decide (j ∈ [i])) :=
    .inr ⟨_, [i], rfl, resolve_int hi, fun _ => rfl⟩
  obtain ⟨o', ho'⟩ := C52_transform_succeeds (f := fun _ => .ok v) h hp hf hd (fun j _ _ => ⟨v, rfl, hv⟩)
  obtain ⟨want, hw, T⟩ := C52_transform h ho'
  refine ⟨o', ho', T.wf, T.pts, T.fts, ?_⟩
  have hwant : ∀ j, want j = decide (j = i) := by
    rcases hw with ⟨h0, _⟩ | ⟨l, idx, h1, h2, h3⟩
    · cases h0
    · cases h1
      rw [resolve_int hi] at h2
      cases h2
      intro j
      rw [h3]
      simp
  intro j hj
  by_cases hji : j = i
  · rw [if_pos hji]
    have := T.done j hj (by rw [hwant]; simpa using hji)
    exact (Except.ok.inj this).symm
  · rw [if_neg hji]
    exact T.kept j hj (by rw [hwant]; simpa using hji)

private theorem loop_refused {o : Obj V} {ax : Ax} {v : List V} {want : Nat → Bool}
    (hv : v.length ≠ (o.axis ax.off).len) : ∀ is : List Nat, (∃ i ∈ is, want i = true) →
    transformLoop (fun (_ : Unit) (_ : List V) => ((.ok v : Res (List V))).map (fun w => (w, ()))) want ax is () o =
      (o, .error .InvalidArgumentValue)
  | [], h => by simp at h
  | i :: is, h => by
    unfold transformLoop
    by_cases hw : want i = true
    · rw [if_pos hw]
      have : checkedLength (o.axis ax.off).len
          (((.ok v : Res (List V))).map (fun w => (w, ()))) = .error .InvalidArgumentValue := by
        simp [checkedLength, Except.map, bind, Except.bind, hv]
      rw [this]
    · rw [if_neg hw]
      apply loop_refused hv is
      obtain ⟨j, hj, hj'⟩ := h
      rcases List.mem_cons.mp hj with rfl | hj
      · exact absurd hj' hw
      · exact ⟨j, hj, hj'⟩

/-- One replacement that cannot be made changes nothing. -/
theorem step_refused {o : Obj V} {ax : Ax} {i : Nat} {v : List V} (hi : i < (o.axis ax).len)
    (hbad : o.pts.len = 0 ∨ o.fts.len = 0 ∨ v.length ≠ (o.axis ax.off).len) :
    ∃ e, transform (fun _ => .ok v) o ax (some [.int i]) = (o, .error e) := by
  unfold transform transformWith
  by_cases hp : o.pts.len = 0
  · rw [if_pos hp]; exact ⟨_, rfl⟩
  · rw [if_neg hp]
    by_cases hf : o.fts.len = 0
    · rw [if_pos hf]; exact ⟨_, rfl⟩
    · rw [if_neg hf]
      simp only [resolveLimit, resolve_int hi, Except.map]
      refine ⟨_, loop_refused ?_ _ ⟨i, by simpa using hi, by simp [inLimit]⟩⟩
      tauto

theorem loop_ok (ax : Ax) (d : Obj V) : ∀ (ps : List (Nat × Nat)) (o : Obj V), o.WF → o.pts.len ≠ 0 → o.fts.len ≠ 0 →
    (∀ p ∈ ps, p.2 < (o.axis ax).len ∧ (d.vector ax p.1).length = (o.axis ax.off).len) →
    ∃ o', replaceLoop ax d ps o = (o', .ok ()) ∧ o'.WF ∧ o'.pts = o.pts ∧ o'.fts = o.fts ∧
      (∀ (n k i : Nat), ps[n]? = some (k, i) → (∀ n' k', n < n' → ps[n']? ≠ some (k', i)) →
        o'.vector ax i = d.vector ax k) ∧
      (∀ i, i < (o.axis ax).len → (∀ p ∈ ps, p.2 ≠ i) → o'.vector ax i = o.vector ax i)
  | [], o, h, _, _, _ => ⟨o, rfl, h, rfl, rfl, by simp, fun _ _ _ => rfl⟩
  | (k0, i0) :: ps, o, h, hp, hf, hall => by
    have hi0 := hall (k0, i0) (by simp)
    obtain ⟨o1, h1, hW, h2, h3, hvec⟩ := step_ok h hi0.1 hp hf hi0.2
    have hax := axis_congr h2 h3
    obtain ⟨o', g1, g2, g3, g4, g5, g6⟩ := loop_ok ax d ps o1 hW (by rw [h2]; exact hp) (by rw [h3]; exact hf)
      (by
        intro p hp
        rw [hax, hax]
        exact hall p (by simp [hp]))
    refine ⟨o', ?_, g2, g3.trans h2, g4.trans h3, ?_, ?_⟩
    · unfold replaceLoop
      rw [h1]
      exact g1
    · intro n k i hn hlast
      cases n with
      | zero =>
        have : (k0, i0) = (k, i) := by simpa using hn
        cases this
        have hno : ∀ p ∈ ps, p.2 ≠ i0 := by
          rintro ⟨k', i'⟩ hp rfl
          obtain ⟨n', hn'⟩ := List.mem_iff_getElem?.mp hp
          exact hlast (n' + 1) k' (by omega) (by simpa using hn')
        rw [g6 i0 (by rw [hax]; exact hi0.1) hno, hvec i0 hi0.1, if_pos rfl]
      | succ n =>
        refine g5 n k i (by simpa using hn) ?_
        intro n' k' hn' he
        exact hlast (n' + 1) k' (by omega) (by simpa using he)
    · intro i hi hno
      rw [g6 i (by rw [hax]; exact hi) (fun p hp => hno p (by simp [hp])), hvec i hi,
        if_neg (fun he => hno (k0, i0) (by simp) he.symm)]

/-- The locations are valid. -/
theorem locations_bound {o d : Obj V} (h : o.WF) {ax : Ax} {locs : Option (List Ident)} {idx : List Nat}
    (hl : replaceLocations o ax d locs = .ok idx) : ∀ i ∈ idx, i < (o.axis ax).len := by
  unfold replaceLocations at hl
  cases locs with
  | some ids => exact resolveIdents_bound (h.axisOk ax) hl
  | none =>
    dsimp only at hl
    split at hl
    · cases hl
      intro i hi
      simpa using hi
    · split at hl
      · cases hl
      · split at hl
        · cases hl
        · by_cases hnone : none ∈ (d.axis ax).getNames
          · obtain ⟨e, he⟩ := resolveNames_none (a := o.axis ax) hnone
            rw [he] at hl
            cases hl
          · obtain ⟨ss, hss⟩ : ∃ ss : List String, (d.axis ax).getNames = ss.map some := by
              generalize (d.axis ax).getNames = l at hnone
              induction l with
              | nil => exact ⟨[], rfl⟩
              | cons x l ih =>
                obtain ⟨ss, hss⟩ := ih (fun hm => hnone (by simp [hm]))
                cases x with
                | none => simp at hnone
                | some s => exact ⟨s :: ss, by simp [hss]⟩
            rw [hss, resolveNames_eq] at hl
            exact resolveIdents_bound (h.axisOk ax) hl

private theorem pairs_mem {n : Nat} {idx : List Nat} {p : Nat × Nat} (hp : p ∈ (List.range n).zip idx) :
    p.1 < n ∧ p.2 ∈ idx := by
  have := List.of_mem_zip hp
  exact ⟨by simpa using this.1, this.2⟩

private theorem pairs_get {n : Nat} {idx : List Nat} (hl : idx.length = n) (j k i : Nat) :
    ((List.range n).zip idx)[j]? = some (k, i) ↔ j = k ∧ idx[j]? = some i := by
  rw [List.getElem?_zip_eq_some]
  constructor
  · rintro ⟨h1, h2⟩
    have hj : j < n := by
      rw [← hl]
      exact (List.getElem?_eq_some_iff.mp h2).1
    rw [List.getElem?_range hj] at h1
    exact ⟨by simpa using h1, h2⟩
  · rintro ⟨rfl, h2⟩
    have hj : j < n := by
      rw [← hl]
      exact (List.getElem?_eq_some_iff.mp h2).1
    exact ⟨List.getElem?_range hj, h2⟩

/-- What the loop does, whether it can be made or not. -/
theorem replaceLoop_spec {o d : Obj V} (h : o.WF) (hd : d.WF) {ax : Ax} {idx : List Nat}
    (hl : idx.length = (d.axis ax).len) (hb : ∀ i ∈ idx, i < (o.axis ax).len) :
    (((d.axis ax).len = 0 ∨ (o.pts.len ≠ 0 ∧ o.fts.len ≠ 0 ∧ (d.axis ax.off).len = (o.axis ax.off).len)) ∧
      ∃ o', replaceLoop ax d ((List.range (d.axis ax).len).zip idx) o = (o', .ok ()) ∧ AxisReplaced o o' d ax idx) ∨
    (¬ ((d.axis ax).len = 0 ∨ (o.pts.len ≠ 0 ∧ o.fts.len ≠ 0 ∧ (d.axis ax.off).len = (o.axis ax.off).len)) ∧
      ∃ e, replaceLoop ax d ((List.range (d.axis ax).len).zip idx) o = (o, .error e)) := by
  by_cases h0 : (d.axis ax).len = 0
  · left
    refine ⟨Or.inl h0, o, by rw [h0]; rfl, ⟨h, rfl, rfl, hl, hb, ?_, fun _ _ _ => rfl⟩⟩
    intro k i hk
    have : idx = [] := List.length_eq_zero_iff.mp (by omega)
    simp [this] at hk
  · by_cases hg : o.pts.len ≠ 0 ∧ o.fts.len ≠ 0 ∧ (d.axis ax.off).len = (o.axis ax.off).len
    · left
      refine ⟨Or.inr hg, ?_⟩
      obtain ⟨o', g1, g2, g3, g4, g5, g6⟩ := loop_ok ax d ((List.range (d.axis ax).len).zip idx) o h hg.1 hg.2.1
        (by
          intro p hp
          obtain ⟨p1, p2⟩ := pairs_mem hp
          exact ⟨hb _ p2, by rw [hd.length_vector ax p1]; exact hg.2.2⟩)
      refine ⟨o', g1, g2, g3, g4, hl, hb, ?_, ?_⟩
      · intro k i hk hlast
        refine g5 k k i ((pairs_get hl k k i).mpr ⟨rfl, hk⟩) ?_
        intro n' k' hn' he
        exact hlast n' hn' ((pairs_get hl n' k' i).mp he).2
      · intro i hi hno
        refine g6 i hi ?_
        rintro p hp rfl
        exact hno (pairs_mem hp).2
    · right
      refine ⟨by tauto, ?_⟩
      obtain ⟨i, idx', rfl⟩ : ∃ i idx', idx = i :: idx' := by
        cases idx with
        | nil => simp at hl; omega
        | cons i idx' => exact ⟨i, idx', rfl⟩
      obtain ⟨m, hm⟩ : ∃ m, (d.axis ax).len = m + 1 := ⟨(d.axis ax).len - 1, by omega⟩
      have hvl := hd.length_vector ax (i := 0) (by omega)
      obtain ⟨e, he⟩ := step_refused (o := o) (v := d.vector ax 0) (hb i (by simp))
        (by rw [hvl]; tauto)
      refine ⟨e, ?_⟩
      rw [hm, List.range_succ_eq_map, List.zip_cons_cons]
      unfold replaceLoop
      rw [he]

/-- The argument as a replacement object is well formed. -/
theorem axisReplace_cases {o d : Obj V} (h : o.WF) (hd : d.WF) {ax : Ax} {data : ReplaceData V}
    {locs : Option (List Ident)} (hr : replacement ax data = .ok d) :
    (∃ o' idx, axisReplace o ax data locs = (o', .ok ()) ∧ replaceLocations o ax d locs = .ok idx ∧
      AxisReplaced o o' d ax idx ∧
      ((d.axis ax).len = 0 ∨ (o.pts.len ≠ 0 ∧ o.fts.len ≠ 0 ∧ (d.axis ax.off).len = (o.axis ax.off).len))) ∨
    (∃ e, axisReplace o ax data locs = (o, .error e)) ∧
      ¬ ((∃ idx, replaceLocations o ax d locs = .ok idx ∧ idx.length = (d.axis ax).len) ∧
      ((d.axis ax).len = 0 ∨ (o.pts.len ≠ 0 ∧ o.fts.len ≠ 0 ∧ (d.axis ax.off).len = (o.axis ax.off).len))) := by
  unfold axisReplace
  rw [hr]
  dsimp only
  cases hl : replaceLocations o ax d locs with
  | error e => exact Or.inr ⟨⟨e, rfl⟩, fun ⟨⟨idx, h1, _⟩, _⟩ => by cases h1⟩
  | ok idx =>
    dsimp only
    by_cases hc : idx.length = (d.axis ax).len
    · rw [if_neg (by simpa using hc)]
      rcases replaceLoop_spec h hd hc (locations_bound h hl) with ⟨g1, o', g2, g3⟩ | ⟨g1, e, g2⟩
      · exact Or.inl ⟨o', idx, g2, rfl, g3, g1⟩
      · exact Or.inr ⟨⟨e, g2⟩, fun hh => g1 hh.2⟩
    · rw [if_pos hc]
      refine Or.inr ⟨⟨_, rfl⟩, ?_⟩
      rintro ⟨⟨idx', h1, h2⟩, _⟩
      cases h1
      exact hc h2

/-- A replacement made from rows is well formed if the rows have equal lengths. -/
theorem makeFrom_rows {r : List (List V)} {w : Nat} (hne : r ≠ []) (hw : ∀ q ∈ r, q.length = w) :
    makeFrom r 0 none none = .ok ⟨r, ⟨r.length, none⟩, ⟨w, none⟩⟩ ∧
      (⟨r, ⟨r.length, none⟩, ⟨w, none⟩⟩ : Obj V).WF := by
  constructor
  · cases r with
    | nil => exact absurd rfl hne
    | cons q r =>
      have : q.length = w := hw q (by simp)
      simp [makeFrom, make, AxisSt.init, this, bind, Except.bind, pure, Except.pure]
  · exact ⟨rfl, hw, none_ok _, none_ok _⟩

theorem setNamesOn_wf {d d' : Obj V} (h : d.WF) {ax : Ax} {n : Option (List (Option String))}
    (hn : setNamesOn d ax n = .ok d') : d'.WF ∧ d'.data = d.data ∧ d'.pts.len = d.pts.len ∧ d'.fts.len = d.fts.len := by
  cases n with
  | none => cases hn; exact ⟨h, rfl, rfl, rfl⟩
  | some l =>
    simp only [setNamesOn, bind, Except.bind, pure, Except.pure] at hn
    cases ha : (d.axis ax).setNames (.list l) with
    | error e => rw [ha] at hn; cases hn
    | ok a =>
      rw [ha] at hn
      cases hn
      obtain ⟨h1, h2, h3⟩ := C02_setNames_list_exact ha
      obtain ⟨_, _, _, hok⟩ := setNames_list_ok ha
      cases ax with
      | point => exact ⟨⟨h.rows.trans h2.symm, h.cols, hok, h.fts⟩, rfl, h2, rfl⟩
      | feature => exact ⟨⟨h.rows, fun q hq => (h.cols q hq).trans h2.symm, h.pts, hok⟩, rfl, rfl, h2⟩

theorem replacement_wf {ax : Ax} {data : ReplaceData V} {d : Obj V} (hr : replacement ax data = .ok d)
    (hdata : ∀ d0 k, data = .obj d0 k → d0.WF)
    (hrows : ∀ r pn fn, data = .rows r pn fn → r ≠ [] ∧ ∃ w, ∀ q ∈ r, q.length = w) : d.WF := by
  cases data with
  | obj d0 k =>
    simp only [replacement] at hr
    split at hr
    · cases hr
    · cases hr; exact hdata _ _ rfl
  | rows r pn fn =>
    obtain ⟨hne, w, hw⟩ := hrows r pn fn rfl
    obtain ⟨h1, h2⟩ := makeFrom_rows hne hw
    simp only [replacement, bind, Except.bind] at hr
    rw [h1] at hr
    dsimp only at hr
    cases ho : orient (⟨r, ⟨r.length, none⟩, ⟨w, none⟩⟩ : Obj V) ax with
    | error e => rw [ho] at hr; cases hr
    | ok d1 =>
      rw [ho] at hr
      dsimp only at hr
      have hd1 : d1.WF := by
        unfold orient at ho
        split at ho
        · obtain ⟨t, t1, t2, _⟩ := transpose_spec h2
          rw [t1] at ho
          cases ho
          exact t2
        · cases ho; exact h2
      cases hp : setNamesOn d1 .point pn with
      | error e => rw [hp] at hr; cases hr
      | ok d2 =>
        rw [hp] at hr
        dsimp only at hr
        exact (setNamesOn_wf (setNamesOn_wf hd1 hp).1 hr).1

/-- What may be given as `data`: an object, or rows of equal lengths. -/
def DataOk (data : ReplaceData V) : Prop :=
  (∀ d0 k, data = .obj d0 k → d0.WF) ∧
  (∀ r pn fn, data = .rows r pn fn → r ≠ [] ∧ ∃ w, ∀ q ∈ r, q.length = w)

/-! ## Properties -/

/-- A refused replace leaves the object as it was. -/
theorem C82_refused_unchanged {o o' : Obj V} (h : o.WF) {ax : Ax} {data : ReplaceData V} (hdata : DataOk data)
    {locs : Option (List Ident)} {e : Err} (he : axisReplace o ax data locs = (o', .error e)) : o' = o := by
  cases hr : replacement ax data with
  | error e' =>
    unfold axisReplace at he
    rw [hr] at he
    cases he
    rfl
  | ok d =>
    rcases axisReplace_cases (locs := locs) h (replacement_wf hr hdata.1 hdata.2) hr with ⟨_, _, h1, _⟩ | ⟨⟨e', h1⟩, _⟩
    · rw [h1] at he; cases he
    · rw [h1] at he; cases he; rfl

/-- With locations: the points (features) they denote are replaced by those of the data object in order, everything else
stays. -/
theorem C82_replace_located {o o' d : Obj V} (h : o.WF) (hd : d.WF) {ax : Ax} {kwds : Bool} {ids : List Ident}
    (hok : axisReplace o ax (.obj d kwds) (some ids) = (o', .ok ())) :
    kwds = false ∧ ∃ idx, resolveIdents (o.axis ax) ids = .ok idx ∧ AxisReplaced o o' d ax idx := by
  cases kwds with
  | true => simp [axisReplace, replacement] at hok
  | false =>
    refine ⟨rfl, ?_⟩
    rcases axisReplace_cases (data := .obj d false) (locs := some ids) (ax := ax) h hd rfl with
      ⟨o1, idx, h1, h2, h3, _⟩ | ⟨⟨e', h1⟩, _⟩
    · rw [h1] at hok
      cases hok
      exact ⟨idx, h2, h3⟩
    · rw [h1] at hok; cases hok

/-- It is accepted exactly when the locations are valid, as many as the points (features) of the data, and these are as
long as those of the object. -/
theorem C82_accepts_iff {o d : Obj V} (h : o.WF) (hd : d.WF) {ax : Ax} {ids : List Ident}
    (hne : 0 < (d.axis ax).len) :
    (∃ o', axisReplace o ax (.obj d false) (some ids) = (o', .ok ())) ↔
      (∃ idx, resolveIdents (o.axis ax) ids = .ok idx) ∧ ids.length = (d.axis ax).len ∧
        0 < (o.axis ax.off).len ∧ (d.axis ax.off).len = (o.axis ax.off).len := by
  have hlen : ∀ idx, resolveIdents (o.axis ax) ids = .ok idx → idx.length = ids.length := by
    intro idx hi
    have := (resolveIdents_ok_iff _ _ _ (h.axisOk ax)).mp hi
    have := congrArg List.length this
    simpa using this.symm
  constructor
  · rintro ⟨o', ho'⟩
    rcases axisReplace_cases (data := .obj d false) (locs := some ids) (ax := ax) h hd rfl with
      ⟨o1, idx, h1, h2, h3, h4⟩ | ⟨⟨e', h1⟩, _⟩
    · refine ⟨⟨idx, h2⟩, by rw [← hlen idx h2]; exact h3.count, ?_⟩
      rcases h4 with h4 | h4
      · omega
      · refine ⟨?_, h4.2.2⟩
        cases ax
        · exact Nat.pos_of_ne_zero h4.2.1
        · exact Nat.pos_of_ne_zero h4.1
    · rw [h1] at ho'; cases ho'
  · rintro ⟨⟨idx, h1⟩, h2, h3, h4⟩
    rcases axisReplace_cases (data := .obj d false) (locs := some ids) (ax := ax) h hd rfl with
      ⟨o1, idx, g1, _⟩ | ⟨_, g2⟩
    · exact ⟨o1, g1⟩
    · exfalso
      apply g2
      refine ⟨⟨idx, h1, (hlen idx h1).trans h2⟩, Or.inr ?_⟩
      have hpos : 0 < (o.axis ax).len := by
        cases idx with
        | nil =>
          have := hlen [] h1
          simp at this
          omega
        | cons i idx =>
          have := resolveIdents_bound (h.axisOk ax) h1 i (by simp)
          omega
      cases ax
      · exact ⟨Nat.ne_of_gt hpos, Nat.ne_of_gt h3, h4⟩
      · exact ⟨Nat.ne_of_gt h3, Nat.ne_of_gt hpos, h4⟩

theorem getNames_length {a : AxisSt} (h : a.Ok) : a.getNames.length = a.len := by
  unfold AxisSt.getNames
  cases ht : a.tbl with
  | none => simp
  | some t => exact (h t ht).length_inv

/-- Names resolve to the points with these names. -/
theorem resolveNames_get {a : AxisSt} (h : a.Ok) : ∀ {l : List (Option String)} {idx : List Nat},
    resolveNames a l = .ok idx → idx.length = l.length ∧
      ∀ (k : Nat) (n : Option String), l[k]? = some n → ∃ i s, n = some s ∧ idx[k]? = some i ∧ a.getNames[i]? = some (some s)
  | [], idx, hr => by
    cases hr
    simp
  | n :: l, idx, hr => by
    simp only [resolveNames, bind, Except.bind, pure, Except.pure] at hr
    cases hn : getIndexName a n with
    | error e => rw [hn] at hr; cases hr
    | ok i =>
      rw [hn] at hr
      dsimp only at hr
      cases hl : resolveNames a l with
      | error e => rw [hl] at hr; cases hr
      | ok rest =>
        rw [hl] at hr
        cases hr
        obtain ⟨h1, h2⟩ := resolveNames_get h hl
        refine ⟨by simp [h1], ?_⟩
        intro k m hk
        cases k with
        | zero =>
          have hm : n = m := by simpa using hk
          subst hm
          cases n with
          | none => simp only [getIndexName] at hn; split at hn <;> cases hn
          | some s =>
            obtain ⟨j, hj1, hj2⟩ := (C04_getIndex_str h s i).mp hn
            subst hj1
            exact ⟨j, s, rfl, by simp, hj2⟩
        | succ k =>
          obtain ⟨j, s, g1, g2, g3⟩ := h2 k m (by simpa using hk)
          exact ⟨j, s, g1, by simpa using g2, g3⟩

/-- Without locations, for an object of another shape: every point (feature) of the data has a name and replaces the
point of that name; the points whose names do not occur stay. -/
theorem C82_replace_by_name {o o' d : Obj V} (h : o.WF) (hd : d.WF) {ax : Ax} {kwds : Bool}
    (hshape : ¬ (o.pts.len = d.pts.len ∧ o.fts.len = d.fts.len))
    (hok : axisReplace o ax (.obj d kwds) none = (o', .ok ())) :
    o'.WF ∧ o'.pts = o.pts ∧ o'.fts = o.fts ∧
    (∀ k, k < (d.axis ax).len → ∃ i s, (d.axis ax).getNames[k]? = some (some s) ∧
      (o.axis ax).getNames[i]? = some (some s) ∧ o'.vector ax i = d.vector ax k) ∧
    (∀ (i : Nat) (n : Option String), (o.axis ax).getNames[i]? = some n → n ∉ (d.axis ax).getNames →
      o'.vector ax i = o.vector ax i) := by
  cases kwds with
  | true => simp [axisReplace, replacement] at hok
  | false =>
    rcases axisReplace_cases (data := .obj d false) (locs := none) (ax := ax) h hd rfl with
      ⟨o1, idx, h1, h2, h3, _⟩ | ⟨⟨e', h1⟩, _⟩
    · rw [h1] at hok
      cases hok
      have hres : resolveNames (o.axis ax) (d.axis ax).getNames = .ok idx := by
        unfold replaceLocations at h2
        dsimp only at h2
        rw [if_neg hshape] at h2
        split at h2
        · cases h2
        · split at h2
          · cases h2
          · exact h2
      obtain ⟨g1, g2⟩ := resolveNames_get (h.axisOk ax) hres
      have hlen := getNames_length (hd.axisOk ax)
      refine ⟨h3.wf, h3.pts, h3.fts, ?_, ?_⟩
      · intro k hk
        have hk' : k < (d.axis ax).getNames.length := by omega
        obtain ⟨i, s, e1, e2, e3⟩ := g2 k _ (List.getElem?_eq_getElem hk')
        refine ⟨i, s, by rw [List.getElem?_eq_getElem hk', e1], e3, h3.written k i e2 ?_⟩
        intro k' hkk' he
        have hk2 : k' < (d.axis ax).getNames.length := by
          rw [← g1]; exact (List.getElem?_eq_some_iff.mp he).1
        obtain ⟨i', s', f1, f2, f3⟩ := g2 k' _ (List.getElem?_eq_getElem hk2)
        rw [he] at f2
        cases f2
        rw [e3] at f3
        cases f3
        have hs1 : (d.axis ax).getNames[k]? = some (some s) := by rw [List.getElem?_eq_getElem hk', e1]
        have hs2 : (d.axis ax).getNames[k']? = some (some s) := by rw [List.getElem?_eq_getElem hk2, f1]
        rw [(hd.axisOk ax).getName_iff] at hs1 hs2
        rw [hs1] at hs2
        have := Except.ok.inj hs2
        omega
      · intro i n hi hn
        have hil : i < (o.axis ax).len := by
          rw [← getNames_length (h.axisOk ax)]; exact (List.getElem?_eq_some_iff.mp hi).1
        refine h3.kept i hil ?_
        intro hmem
        obtain ⟨k, hk⟩ := List.mem_iff_getElem?.mp hmem
        have hk2 : k < (d.axis ax).getNames.length := by
          rw [← g1]; exact (List.getElem?_eq_some_iff.mp hk).1
        obtain ⟨i', s', f1, f2, f3⟩ := g2 k _ (List.getElem?_eq_getElem hk2)
        rw [hk] at f2
        cases f2
        rw [hi] at f3
        cases f3
        exact hn (by rw [← f1]; exact List.getElem_mem hk2)
    · rw [h1] at hok; cases hok

/-- Without locations, for an object of the same shape: everything is replaced, in order. -/
theorem C82_replace_all {o o' d : Obj V} (h : o.WF) (hd : d.WF) {ax : Ax} {kwds : Bool}
    (hshape : o.pts.len = d.pts.len ∧ o.fts.len = d.fts.len)
    (hok : axisReplace o ax (.obj d kwds) none = (o', .ok ())) :
    o'.pts = o.pts ∧ o'.fts = o.fts ∧ ∀ i, i < (o.axis ax).len → o'.vector ax i = d.vector ax i := by
  cases kwds with
  | true => simp [axisReplace, replacement] at hok
  | false =>
    rcases axisReplace_cases (data := .obj d false) (locs := none) (ax := ax) h hd rfl with
      ⟨o1, idx, h1, h2, h3, _⟩ | ⟨⟨e', h1⟩, _⟩
    · rw [h1] at hok
      cases hok
      unfold replaceLocations at h2
      dsimp only at h2
      rw [if_pos hshape] at h2
      cases h2
      refine ⟨h3.pts, h3.fts, ?_⟩
      intro i hi
      refine h3.written i i (List.getElem?_range hi) ?_
      intro k' hk' he
      have hk2 : k' < (o.axis ax).len := by
        have := (List.getElem?_eq_some_iff.mp he).1
        simpa using this
      rw [List.getElem?_range hk2] at he
      have := Option.some.inj he
      omega
    · rw [h1] at hok; cases hok

theorem range_get (v : List V) : (List.range v.length).filterMap (fun (j : Nat) => v[j]?) = v := by
  induction v using List.reverseRecOn with
  | nil => rfl
  | append_singleton v x ih =>
    rw [List.length_append, List.length_singleton, List.range_succ, List.filterMap_append]
    congr 1
    · refine Eq.trans ?_ ih
      apply List.filterMap_congr
      intro j hj
      rw [List.getElem?_append_left (by simpa using hj)]
    · simp

/-- A flat list of values replaces one point, or one feature. -/
theorem C82_flat_list {o : Obj V} (h : o.WF) {ax : Ax} {v : List V} {id : Ident} {i : Nat}
    (hid : (o.axis ax).getIndex id = .ok (i : Int)) (hv : v.length = (o.axis ax.off).len) (hne : v ≠ []) :
    ∃ o', axisReplace o ax (.rows [v] none none) (some [id]) = (o', .ok ()) ∧ o'.WF ∧ o'.pts = o.pts ∧ o'.fts = o.fts ∧
      o'.vector ax i = v ∧ ∀ j, j < (o.axis ax).len → j ≠ i → o'.vector ax j = o.vector ax j := by
  have hi := C04_getIndex_valid (h.axisOk ax) hid
  have hpos : 0 < v.length := List.length_pos_iff.mpr hne
  obtain ⟨m1, m2⟩ := makeFrom_rows (r := [v]) (w := v.length) (by simp) (by simp)
  have key : ∃ d, replacement ax (.rows [v] none none) = .ok d ∧ d.WF ∧ (d.axis ax).len = 1 ∧
      (d.axis ax.off).len = v.length ∧ d.vector ax 0 = v := by
    cases ax with
    | point =>
      refine ⟨_, ?_, m2, rfl, rfl, rfl⟩
      simp only [replacement, m1, bind, Except.bind, orient, needsTranspose]
      simp [setNamesOn]
    | feature =>
      obtain ⟨t, t1, t2, t3, t4, t5, _⟩ := transpose_spec m2
      by_cases h1 : 1 < v.length
      · refine ⟨t, ?_, t2, t5, t4, ?_⟩
        · simp only [replacement, m1, bind, Except.bind]
          rw [show orient _ Ax.feature = .ok t from by
            unfold orient; rw [if_pos (by simp [needsTranspose, h1])]; exact t1]
          rfl
        · show t.data.filterMap (·[0]?) = v
          rw [t3]
          simp only [transposeData, List.filterMap_map]
          refine Eq.trans ?_ (range_get v)
          congr 1
          funext (j : Nat)
          cases hj : v[j]? <;> simp [hj]
      · have h1' : v.length = 1 := by omega
        refine ⟨_, ?_, m2, h1', h1'.symm, ?_⟩
        · simp only [replacement, m1, bind, Except.bind, orient, needsTranspose]
          simp [setNamesOn, h1]
        · obtain ⟨x, rfl⟩ := List.length_eq_one_iff.mp h1'
          rfl
  obtain ⟨d, hr, hd, d1, d2, d3⟩ := key
  have hres : resolveIdents (o.axis ax) [id] = .ok [i] := by
    simp [resolveIdents, hid, bind, Except.bind, pure, Except.pure]
  rcases axisReplace_cases (locs := some [id]) h hd hr with ⟨o1, idx, h1, h2, h3, _⟩ | ⟨_, g2⟩
  · rw [show replaceLocations o ax d (some [id]) = resolveIdents (o.axis ax) [id] from rfl, hres] at h2
    cases h2
    refine ⟨o1, h1, h3.wf, h3.pts, h3.fts, ?_, ?_⟩
    · rw [h3.written 0 i rfl (by intro k' hk'; rw [List.getElem?_eq_none (by simp; omega)]; simp), d3]
    · intro j hj hji
      exact h3.kept j hj (by simpa using hji)
  · exfalso
    apply g2
    refine ⟨⟨[i], hres, by rw [d1]; rfl⟩, Or.inr ?_⟩
    cases ax
    · simp only [Obj.axis, Ax.off] at *
      omega
    · simp only [Obj.axis, Ax.off] at *
      omega

/-- Rows are used as the object with these rows, unless they could be a single vector standing the wrong way. -/
theorem C82_rows_as_object {o : Obj V} {ax : Ax} {r : List (List V)} {w : Nat} (hne : r ≠ [])
    (hw : ∀ q ∈ r, q.length = w)
    (hshape : match ax with | .point => w ≠ 1 ∨ r.length = 1 | .feature => r.length ≠ 1 ∨ w ≤ 1)
    (locs : Option (List Ident)) :
    axisReplace o ax (.rows r none none) locs =
      axisReplace o ax (.obj ⟨r, ⟨r.length, none⟩, ⟨w, none⟩⟩ false) locs := by
  obtain ⟨m1, m2⟩ := makeFrom_rows hne hw
  have : replacement ax (.rows r none none) = .ok ⟨r, ⟨r.length, none⟩, ⟨w, none⟩⟩ := by
    simp only [replacement, m1, bind, Except.bind]
    rw [show orient (⟨r, ⟨r.length, none⟩, ⟨w, none⟩⟩ : Obj V) ax = .ok ⟨r, ⟨r.length, none⟩, ⟨w, none⟩⟩ from by
      unfold orient
      rw [if_neg]
      cases ax with
      | point => simp only [needsTranspose] at hshape ⊢; simp; omega
      | feature => simp only [needsTranspose] at hshape ⊢; simp; omega]
    rfl
  unfold axisReplace
  rw [this]
  rfl

/-! ## Concrete cases -/

/-- Three points `a`, `b`, `c` of two features. -/
def replEx : Obj Nat :=
  ⟨[[1, 2], [3, 4], [5, 6]],
    ⟨3, some ⟨[("a", 0), ("b", 1), ("c", 2)], [some "a", some "b", some "c"]⟩⟩, ⟨2, none⟩⟩

/-- Two points named `c` and `a`. -/
def replNew : Obj Nat := ⟨[[9, 8], [7, 6]], ⟨2, some ⟨[("c", 0), ("a", 1)], [some "c", some "a"]⟩⟩, ⟨2, none⟩⟩

example : axisReplace replEx .point (.obj replNew false) none =
    ({ replEx with data := [[7, 6], [3, 4], [9, 8]] }, .ok ()) := by decide +kernel

example : axisReplace replEx .point (.obj replNew false) (some [.int (-1), .str "b"]) =
    ({ replEx with data := [[1, 2], [7, 6], [9, 8]] }, .ok ()) := by decide +kernel

example : axisReplace replEx .feature (.rows [[9, 8, 7]] none none) (some [.int 1]) =
    ({ replEx with data := [[1, 9], [3, 8], [5, 7]] }, .ok ()) := by decide +kernel

example : axisReplace replEx .point (.rows [[9, 8]] (some [some "b"]) none) none =
    ({ replEx with data := [[1, 2], [9, 8], [5, 6]] }, .ok ()) := by decide +kernel

/-- The points of `replEx` in another order. -/
def replOrder : Obj Nat :=
  ⟨[[30, 40], [10, 20], [50, 60]],
    ⟨3, some ⟨[("b", 0), ("a", 1), ("c", 2)], [some "b", some "a", some "c"]⟩⟩, ⟨2, none⟩⟩

/-- **Violated.** "If no points are given, the data replaces the points of the same names": when the data has as many
points and features as the object its names are ignored (axis.py:672-673), so that `a` gets the values of `b`. -/
theorem C82_matching_names_violated :
    ∃ o d o' : Obj Nat, o.WF ∧ d.WF ∧ axisReplace o .point (.obj d false) none = (o', .ok ()) ∧
      ∃ i k s, o.pts.getNames[i]? = some (some s) ∧ d.pts.getNames[k]? = some (some s) ∧
        o'.pts.getNames[i]? = some (some s) ∧ o'.vector .point i ≠ d.vector .point k := by
  refine ⟨replEx, replOrder, { replEx with data := [[30, 40], [10, 20], [50, 60]] }, ?_, ?_, by decide +kernel,
    0, 1, "a", by decide +kernel, by decide +kernel, by decide +kernel, by decide +kernel⟩
  · exact ⟨rfl, by decide, mk_ok (l := [some "a", some "b", some "c"]) rfl (by decide), none_ok _⟩
  · exact ⟨rfl, by decide, mk_ok (l := [some "b", some "a", some "c"]) rfl (by decide), none_ok _⟩

/-- **Violated.** "The rows of the data replace the points": rows of one value are taken for one point (axis.py:660-663),
so for an object with one feature, data with two or more points given as rows is refused for every choice of points. -/
theorem C82_single_feature_violated {o : Obj V} (h : o.WF) (h1 : o.fts.len = 1) {r : List (List V)}
    (hr : ∀ q ∈ r, q.length = 1) (hn : 2 ≤ r.length) (locs : Option (List Ident)) :
    ∃ e, axisReplace o .point (.rows r none none) locs = (o, .error e) := by
  have hne : r ≠ [] := by intro h0; simp [h0] at hn
  obtain ⟨m1, m2⟩ := makeFrom_rows hne hr
  obtain ⟨t, t1, t2, t3, t4, t5, _⟩ := transpose_spec m2
  have hrep : replacement .point (.rows r none none) = .ok t := by
    simp only [replacement, m1, bind, Except.bind]
    rw [show orient _ Ax.point = .ok t from by
      unfold orient; rw [if_pos (by simp [needsTranspose]; omega)]; exact t1]
    rfl
  rcases axisReplace_cases (locs := locs) h t2 hrep with ⟨o1, idx, _, _, _, h4⟩ | ⟨g1, _⟩
  · exfalso
    have e1 : t.pts.len = 1 := t4
    have e2 : t.fts.len = r.length := t5
    rcases h4 with h4 | ⟨_, _, h4⟩
    · have : t.pts.len = 0 := h4
      omega
    · have : t.fts.len = o.fts.len := h4
      omega
  · exact g1

end Nimble.Obj
