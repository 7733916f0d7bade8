import Verif.Props.Fill
import Verif.Lemmas.Structural
import Verif.Lemmas.NamesPartial

/-!
# C28 on whole objects, C51, C52: transform and fillMatching
-/

namespace Nimble
namespace Obj
variable {V : Type}

/-! ## Storing one vector -/

theorem setVector_axis (o : Obj V) (ax : Ax) (i : Nat) (v : List V) (ax' : Ax) :
    (o.setVector ax i v).axis ax' = o.axis ax' := by cases ax <;> cases ax' <;> rfl

theorem setVector_WF {o : Obj V} (h : o.WF) {ax : Ax} {i : Nat} {v : List V}
    (hv : v.length = (o.axis ax.off).len) : (o.setVector ax i v).WF := by
  cases ax with
  | point =>
    refine ⟨by simpa [setVector] using h.rows, ?_, h.pts, h.fts⟩
    intro r hr
    rcases List.mem_or_eq_of_mem_set hr with h1 | h1
    · exact h.cols r h1
    · subst h1; exact hv
  | feature =>
    refine ⟨?_, ?_, h.pts, h.fts⟩
    · have hv' : v.length = o.pts.len := hv
      have := h.rows
      simp [setVector]; omega
    · intro r hr
      simp only [setVector] at hr
      obtain ⟨k, hk⟩ := List.getElem?_of_mem hr
      rw [List.getElem?_zipWith] at hk
      cases h1 : o.data[k]? with
      | none => simp [h1] at hk
      | some r0 =>
        cases h2 : v[k]? with
        | none => simp [h1, h2] at hk
        | some x =>
          simp [h1, h2] at hk
          rw [← hk, List.length_set]
          exact h.cols _ (List.mem_of_getElem? h1)

theorem vector_setVector {o : Obj V} (h : o.WF) {ax : Ax} {i k : Nat} {v : List V}
    (hv : v.length = (o.axis ax.off).len) (hi : i < (o.axis ax).len) (hk : k < (o.axis ax).len) :
    (o.setVector ax i v).vector ax k = if k = i then v else o.vector ax k := by
  cases ax with
  | point =>
    have hi' : i < o.data.length := by rw [h.rows]; exact hi
    simp only [setVector, vector, List.getElem?_set]
    by_cases hki : k = i
    · subst hki; simp [hi']
    · simp [hki, Ne.symm hki]
  | feature =>
    have hW := setVector_WF (i := i) h (ax := .feature) hv
    have hv' : v.length = o.pts.len := hv
    have hr := h.rows
    apply List.ext_getElem?
    intro m
    have hb := hW.col_bound (j := k) hk
    rw [show (o.setVector .feature i v).vector .feature k =
      (o.setVector .feature i v).data.filterMap (·[k]?) from rfl, getElem?_filterMap_col hb]
    simp only [setVector, List.getElem?_zipWith]
    cases h1 : o.data[m]? with
    | none =>
      have hm : o.data.length ≤ m := List.getElem?_eq_none_iff.1 h1
      by_cases hki : k = i
      · simp [hki]
        omega
      · simp only [if_neg hki]
        rw [show o.vector .feature k = o.data.filterMap (·[k]?) from rfl,
          getElem?_filterMap_col (h.col_bound hk), h1]
    | some r =>
      have hm : m < o.data.length := (List.getElem?_eq_some_iff.1 h1).1
      have h2 : v[m]? = some v[m] := List.getElem?_eq_getElem (by omega)
      have hrl : r.length = o.fts.len := h.cols r (List.mem_of_getElem? h1)
      have hi' : i < r.length := by rw [hrl]; exact hi
      simp only [h2, Option.bind_some]
      by_cases hki : k = i
      · subst hki; simp [hi', h2]
      · rw [if_neg hki, show o.vector .feature k = o.data.filterMap (·[k]?) from rfl,
          getElem?_filterMap_col (h.col_bound hk), h1]
        simp [Ne.symm hki]

/-! ## Specification -/

/-- What a successful transformation must do: names and shape stay, every wanted vector becomes
`g` of itself, every other vector stays. -/
structure Transformed (o o' : Obj V) (ax : Ax) (want : Nat → Bool)
    (g : Nat → List V → Res (List V)) : Prop where
  wf : o'.WF
  pts : o'.pts = o.pts
  fts : o'.fts = o.fts
  done : ∀ i : Nat, i < (o.axis ax).len → want i = true →
    g i (o.vector ax i) = .ok (o'.vector ax i)
  kept : ∀ i : Nat, i < (o.axis ax).len → want i = false → o'.vector ax i = o.vector ax i

/-- One step of the wrapped function. -/
private theorem checkedLength_ok {S : Type} {n : Nat} {r : Res (List V × S)} {p : List V × S}
    (h : checkedLength n r = .ok p) : r = .ok p ∧ p.1.length = n := by
  cases r with
  | error e => simp [checkedLength] at h; cases h
  | ok q =>
    by_cases hq : q.1.length ≠ n
    · have : checkedLength n (.ok q) = .error .InvalidArgumentValue := by
        unfold checkedLength
        show (if q.1.length ≠ n then _ else _) = _
        rw [if_pos hq]
      rw [this] at h; cases h
    · have : checkedLength n (.ok q) = .ok q := by
        unfold checkedLength
        show (if q.1.length ≠ n then _ else _) = _
        rw [if_neg hq]; rfl
      rw [this] at h
      cases h
      exact ⟨rfl, by omega⟩

/-- The loop, when the state of the function at every index is described by `Inv`. -/
private theorem transformLoop_spec {S : Type} (f : S → List V → Res (List V × S)) (want : Nat → Bool)
    (ax : Ax) (g : Nat → List V → Res (List V)) (Inv : List Nat → S → Prop)
    (hskip : ∀ i is s, Inv (i :: is) s → want i = false → Inv is s)
    (hstep : ∀ i is s v w s', Inv (i :: is) s → want i = true → f s v = .ok (w, s') →
      g i v = .ok w ∧ Inv is s')
    (is : List Nat) (s : S) (o o' : Obj V) (h : o.WF) (hn : is.Nodup)
    (hb : ∀ i ∈ is, i < (o.axis ax).len) (hI : Inv is s)
    (hr : transformLoop f want ax is s o = (o', .ok ())) :
    o'.WF ∧ o'.pts = o.pts ∧ o'.fts = o.fts ∧
    (∀ i : Nat, i ∈ is → want i = true → g i (o.vector ax i) = .ok (o'.vector ax i)) ∧
    (∀ i : Nat, i < (o.axis ax).len → (i ∉ is ∨ want i = false) →
      o'.vector ax i = o.vector ax i) := by
  induction is generalizing s o with
  | nil =>
    simp only [transformLoop, Prod.mk.injEq, and_true] at hr
    subst hr
    exact ⟨h, rfl, rfl, by simp, fun _ _ _ => rfl⟩
  | cons i is ih =>
    have hin := List.nodup_cons.1 hn
    have hil := hb i (by simp)
    cases hw : want i with
    | false =>
      simp only [transformLoop, hw, Bool.false_eq_true, if_false] at hr
      obtain ⟨h1, h2, h3, h4, h5⟩ := ih s o h hin.2 (fun k hk => hb k (by simp [hk]))
        (hskip i is s hI hw) hr
      refine ⟨h1, h2, h3, ?_, ?_⟩
      · intro k hk hwk
        rcases List.mem_cons.1 hk with rfl | hk
        · rw [hw] at hwk; cases hwk
        · exact h4 k hk hwk
      · intro k hkl hk
        apply h5 k hkl
        by_cases hki : k = i
        · subst hki; exact .inr hw
        · rcases hk with hk | hk
          · exact .inl (fun hc => hk (by simp [hc]))
          · exact .inr hk
    | true =>
      simp only [transformLoop, hw, if_true] at hr
      cases hc : checkedLength (o.axis ax.off).len (f s (o.vector ax i)) with
      | error e => simp [hc] at hr
      | ok p =>
        obtain ⟨w, s'⟩ := p
        simp only [hc] at hr
        obtain ⟨hf, hwl⟩ := checkedLength_ok hc
        simp only at hwl
        obtain ⟨hg, hI'⟩ := hstep i is s _ w s' hI hw hf
        have hW := setVector_WF (i := i) h hwl
        have hax : ∀ ax', (o.setVector ax i w).axis ax' = o.axis ax' :=
          fun ax' => setVector_axis o ax i w ax'
        obtain ⟨h1, h2, h3, h4, h5⟩ := ih s' (o.setVector ax i w) hW hin.2
          (fun k hk => by rw [hax]; exact hb k (by simp [hk])) hI' hr
        refine ⟨h1, h2.trans (hax .point), h3.trans (hax .feature), ?_, ?_⟩
        · intro k hk hwk
          rcases List.mem_cons.1 hk with rfl | hk
          · rw [h5 k (by rw [hax]; exact hil) (.inl hin.1),
              vector_setVector h hwl hil hil, if_pos rfl, hg]
          · have hki : k ≠ i := fun hc => hin.1 (hc ▸ hk)
            have := h4 k hk hwk
            rwa [vector_setVector h hwl hil (hb k (by simp [hk])), if_neg hki] at this
        · intro k hkl hk
          have hki : k ≠ i := by
            rintro rfl
            rcases hk with hk | hk
            · exact hk (by simp)
            · rw [hw] at hk; cases hk
          rw [h5 k (by rw [hax]; exact hkl) (by
            rcases hk with hk | hk
            · exact .inl (fun hc => hk (by simp [hc]))
            · exact .inr hk), vector_setVector h hwl hil hkl, if_neg hki]

private theorem transformWith_ok {S : Type} {f : S → List V → Res (List V × S)} {s : S}
    {o o' : Obj V} {ax : Ax} {limitTo : Option (List Ident)}
    (hr : transformWith f s o ax limitTo = (o', .ok ())) :
    o.pts.len ≠ 0 ∧ o.fts.len ≠ 0 ∧ ∃ lim, resolveLimit (o.axis ax) limitTo = .ok lim ∧
      transformLoop f (inLimit lim) ax (List.range (o.axis ax).len) s o = (o', .ok ()) := by
  unfold transformWith at hr
  by_cases h1 : o.pts.len = 0
  · simp [h1] at hr
  · by_cases h2 : o.fts.len = 0
    · simp [h1, h2] at hr
    · rw [if_neg h1, if_neg h2] at hr
      refine ⟨h1, h2, ?_⟩
      cases hl : resolveLimit (o.axis ax) limitTo with
      | error e => simp [hl] at hr
      | ok lim => simp only [hl] at hr; exact ⟨lim, rfl, hr⟩

/-- The indices a `points=`/`features=` argument denotes: all, or those the identifiers resolve
to. -/
def Denotes (a : AxisSt) (ids : Option (List Ident)) (want : Nat → Bool) : Prop :=
  (ids = none ∧ ∀ i, want i = true) ∨
  (∃ l idx, ids = some l ∧ resolveIdents a l = .ok idx ∧ ∀ i, want i = decide (i ∈ idx))

private theorem denotes_of_resolve {a : AxisSt} {ids : Option (List Ident)} {lim : Option (List Nat)}
    (h : resolveLimit a ids = .ok lim) : Denotes a ids (inLimit lim) := by
  cases ids with
  | none => simp [resolveLimit] at h; subst h; exact .inl ⟨rfl, fun _ => rfl⟩
  | some l =>
    simp only [resolveLimit] at h
    cases hl : resolveIdents a l with
    | error e => simp [hl, Except.map] at h
    | ok idx =>
      simp [hl, Except.map] at h; subst h
      exact .inr ⟨l, idx, rfl, hl, fun _ => rfl⟩

/-- **C52** (transform): when `points.transform` / `features.transform` succeeds, every selected
point (feature) has become the function's value on it, of the right length, every other one and all
names and the shape are unchanged. -/
theorem C52_transform {f : List V → Res (List V)} {o o' : Obj V} {ax : Ax}
    {limitTo : Option (List Ident)} (h : o.WF)
    (hr : transform f o ax limitTo = (o', .ok ())) :
    ∃ want, Denotes (o.axis ax) limitTo want ∧ Transformed o o' ax want (fun _ => f) := by
  obtain ⟨-, -, lim, hl, hloop⟩ := transformWith_ok hr
  have := transformLoop_spec _ (inLimit lim) ax (fun _ => f) (fun _ _ => True)
    (fun _ _ _ _ _ => trivial)
    (by
      intro i is s v w s' _ _ hf
      refine ⟨?_, trivial⟩
      cases hfv : f v with
      | error e => simp [hfv, Except.map] at hf
      | ok w' => simp [hfv, Except.map] at hf; rw [hf])
    (List.range (o.axis ax).len) () o o' h List.nodup_range (by simp) trivial hloop
  obtain ⟨h1, h2, h3, h4, h5⟩ := this
  exact ⟨inLimit lim, denotes_of_resolve hl, h1, h2, h3,
    fun i hi hw => h4 i (by simpa using hi) hw, fun i hi hw => h5 i hi (.inr hw)⟩

/-- Which boolean vector belongs to vector `i` of the object. -/
def Matcher.rowFor (m : Matcher V) (ax : Ax) (i : Nat) (v : List V) : List Bool :=
  match m with
  | .func g => v.map g
  | .obj b => b.vector ax i

/-- The full statement for `fillMatching`: on success every selected vector is the fill function's
value on it and *its own* row of the matcher, everything else is unchanged. -/
def FillMatchingCorrect (fl : List V → List Bool → Res (List V)) (m : Matcher V) (o : Obj V)
    (ax : Ax) (limitTo : Limit) : Prop :=
  ∀ o', fillMatching fl m o ax limitTo = (o', .ok ()) →
    ∃ want, Denotes (o.axis ax) limitTo.idents want ∧
      Transformed o o' ax want (fun i v => fl v (m.rowFor ax i v))

/-- **C28** (fillMatching with a function): correct for every `points`/`features` argument. -/
theorem C28_fillMatching_function (fl : List V → List Bool → Res (List V)) (g : V → Bool)
    (o : Obj V) (ax : Ax) (limitTo : Limit) (h : o.WF) :
    FillMatchingCorrect fl (.func g) o ax limitTo := by
  intro o' hr
  unfold fillMatching at hr
  cases ho : limitTo.idxOrder (o.axis ax) with
  | error e => simp [ho] at hr
  | ok order =>
    simp only [ho] at hr
    obtain ⟨-, -, lim, hl, hloop⟩ := transformWith_ok hr
    have := transformLoop_spec _ (inLimit lim) ax (fun i v => fl v (Matcher.rowFor (.func g) ax i v))
      (fun _ _ => True) (fun _ _ _ _ _ => trivial)
      (by
        intro i is s v w s' _ _ hf
        refine ⟨?_, trivial⟩
        simp only [fillFunction] at hf
        show fl v (v.map g) = _
        cases hfv : fl v (Fill.boolMatch g v) with
        | error e => simp [hfv, Except.map] at hf
        | ok w' =>
          simp [hfv, Except.map] at hf
          rw [← hf.1]; exact hfv)
      (List.range (o.axis ax).len) order o o' h List.nodup_range (by simp) trivial hloop
    obtain ⟨h1, h2, h3, h4, h5⟩ := this
    exact ⟨inLimit lim, denotes_of_resolve hl, h1, h2, h3,
      fun i hi hw => h4 i (by simpa using hi) hw, fun i hi hw => h5 i hi (.inr hw)⟩

private theorem getIndex_valid {a : AxisSt} (hok : a.Ok) {id : Ident} {i : Int}
    (h : a.getIndex id = .ok i) : i = ((i.toNat : Nat) : Int) ∧ i.toNat < a.len := by
  have := getIndex_bound hok h
  omega

private theorem getIndex_nat {a : AxisSt} {i : Nat} {fl : Bool} {k : Int}
    (h : a.getIndex (.int (i : Int)) fl = .ok k) : k = (i : Int) := by
  have hne : ¬ ((i : Int) < 0) := by omega
  simp only [AxisSt.getIndex] at h
  split at h
  · cases h
  · split at h
    · cases h
    · cases h; rfl

private theorem resolveIdents_forall₂ {a : AxisSt} {ids : List Ident} {l : List Nat}
    (h : resolveIdents a ids = .ok l) (hok : a.Ok) :
    List.Forall₂ (fun id i => a.getIndex id = .ok ((i : Nat) : Int) ∧ i < a.len) ids l := by
  induction ids generalizing l with
  | nil => simp [resolveIdents] at h; subst h; exact .nil
  | cons id ids ih =>
    simp only [resolveIdents] at h
    cases h1 : a.getIndex id with
    | error e => simp [h1] at h; cases h
    | ok i =>
      cases h2 : resolveIdents a ids with
      | error e => simp [h1, h2] at h; cases h
      | ok rest =>
        simp [h1, h2] at h
        cases h
        obtain ⟨h3, h4⟩ := getIndex_valid hok h1
        refine .cons ⟨?_, h4⟩ (ih h2)
        rw [h1, ← h3]

private theorem range_filter_of_sorted {l : List Nat} {n : Nat} (hs : l.Pairwise (· < ·))
    (hb : ∀ i ∈ l, i < n) : (List.range n).filter (fun i => decide (i ∈ l)) = l := by
  apply List.Perm.eq_of_pairwise (le := (· < ·))
  · intro a b _ _ h1 h2; omega
  · exact List.pairwise_lt_range.filter _
  · exact hs
  · rw [List.perm_ext_iff_of_nodup (List.nodup_range.filter _) (hs.imp (fun h => Nat.ne_of_lt h))]
    intro a; simp; exact hb a

/-- The loop for a boolean object whose remaining identifiers denote, in the boolean object, the
remaining wanted indices in order. -/
private theorem fillMatching_obj_core (fl : List V → List Bool → Res (List V)) (b : Obj Bool)
    {o o' : Obj V} {ax : Ax} (h : o.WF) {lim : Option (List Nat)} {order : List Ident}
    (hord : List.Forall₂ (fun id (i : Nat) => ∀ k, (b.axis ax).getIndex id true = .ok k → k = (i : Int))
      order ((List.range (o.axis ax).len).filter (inLimit lim)))
    (hloop : transformLoop (fillFunction fl (.obj b) ax) (inLimit lim) ax
      (List.range (o.axis ax).len) order o = (o', .ok ())) :
    Transformed o o' ax (inLimit lim) (fun i v => fl v (Matcher.rowFor (.obj b) ax i v)) := by
  have := transformLoop_spec _ (inLimit lim) ax
    (fun i v => fl v (Matcher.rowFor (.obj b) ax i v))
    (fun is s => List.Forall₂ (fun id (i : Nat) => ∀ k, (b.axis ax).getIndex id true = .ok k →
      k = (i : Int)) s (is.filter (inLimit lim)))
    (fun i is s hI hw => by rwa [List.filter_cons_of_neg (by simp [hw])] at hI)
    (by
      intro i is s v w s' hI hw hf
      rw [List.filter_cons_of_pos hw] at hI
      cases hI with
      | cons hid hrest =>
        rename_i id rest
        simp only [fillFunction, matcherRow] at hf
        cases hg : (b.axis ax).getIndex id true with
        | error e => simp [hg, Except.map] at hf; cases hf
        | ok k =>
          have hk := hid k hg
          subst hk
          simp only [hg, Except.map] at hf
          show fl v (b.vector ax i) = _ ∧ _
          cases hfv : fl v (b.vector ax i) with
          | error e =>
            have hf' : (Except.error e : Res (List V × List Ident)) = .ok (w, s') := by
              rw [← hf]
              show _ = (fl v (b.vector ax (Int.toNat (i : Int))) >>= _)
              rw [Int.toNat_natCast, hfv]; rfl
            cases hf'
          | ok w' =>
            have hf' : (Except.ok (w', rest) : Res (List V × List Ident)) = .ok (w, s') := by
              rw [← hf]
              show _ = (fl v (b.vector ax (Int.toNat (i : Int))) >>= _)
              rw [Int.toNat_natCast, hfv]; rfl
            cases hf'
            exact ⟨rfl, hrest⟩)
    (List.range (o.axis ax).len) order o o' h List.nodup_range (by simp) hord hloop
  obtain ⟨h1, h2, h3, h4, h5⟩ := this
  exact ⟨h1, h2, h3, fun i hi hw => h4 i (by simpa using hi) hw, fun i hi hw => h5 i hi (.inr hw)⟩

/-- When the order in which the iterator of `fillMatching` hands out identifiers agrees with the
order in which the axis is walked: no limit, a single index, or a list of identifiers in increasing
order of position that denote the same positions in the boolean object. -/
def Limit.Aligned (o : Obj V) (b : Obj Bool) (ax : Ax) : Limit → Prop
  | .all => True
  | .index _ => True
  | .name _ => False
  | .list ids => (∀ l, resolveIdents (o.axis ax) ids = .ok l → l.Pairwise (· < ·)) ∧
      ∀ id ∈ ids, ∀ k, (b.axis ax).getIndex id true = .ok k → (o.axis ax).getIndex id = .ok k

/-- **C28** (fillMatching with a boolean object), restricted to aligned `points`/`features`
arguments; the unrestricted claim is false (`C28_fillMatching_order_violated`,
`C28_fillMatching_name_violated`). -/
theorem C28_fillMatching_object_partial (fl : List V → List Bool → Res (List V)) (b : Obj Bool)
    (o : Obj V) (ax : Ax) (limitTo : Limit) (h : o.WF) (ha : limitTo.Aligned o b ax) :
    FillMatchingCorrect fl (.obj b) o ax limitTo := by
  intro o' hr
  unfold fillMatching at hr
  cases ho : limitTo.idxOrder (o.axis ax) with
  | error e => simp [ho] at hr
  | ok order =>
    simp only [ho] at hr
    obtain ⟨-, -, lim, hl, hloop⟩ := transformWith_ok hr
    refine ⟨inLimit lim, denotes_of_resolve hl, fillMatching_obj_core fl b h ?_ hloop⟩
    cases limitTo with
    | all =>
      simp [Limit.idents, resolveLimit] at hl; subst hl
      simp [Limit.idxOrder] at ho; subst ho
      have hf : (List.range (o.axis ax).len).filter (inLimit none) = List.range (o.axis ax).len := by
        rw [List.filter_eq_self]; intros; rfl
      rw [hf, List.forall₂_map_left_iff, List.forall₂_same]
      intro i hi k hk
      exact getIndex_nat hk
    | index i =>
      simp only [Limit.idents, resolveLimit, resolveIdents] at hl
      simp only [Limit.idxOrder] at ho
      cases hg : (o.axis ax).getIndex (.int i) with
      | error e => simp [hg, Except.map] at ho
      | ok k =>
        simp [hg, Except.map] at ho hl
        have hl' : lim = some [k.toNat] := by cases hl; rfl
        subst hl'; subst ho
        obtain ⟨hk1, hk2⟩ := getIndex_valid (h.axisOk ax) hg
        have hf : (List.range (o.axis ax).len).filter (inLimit (some [k.toNat])) = [k.toNat] := by
          have := range_filter_of_sorted (l := [k.toNat]) (n := (o.axis ax).len) (by simp)
            (by simpa using hk2)
          exact this
        rw [hf]
        refine .cons ?_ .nil
        intro m hm
        rw [hk1] at hm
        exact getIndex_nat hm
    | name s => exact absurd ha (by simp [Limit.Aligned])
    | list ids =>
      simp [Limit.idxOrder] at ho; subst ho
      simp only [Limit.idents, resolveLimit] at hl
      cases hg : resolveIdents (o.axis ax) ids with
      | error e => simp [hg, Except.map] at hl
      | ok l =>
        simp [hg, Except.map] at hl; subst hl
        have hF := resolveIdents_forall₂ hg (h.axisOk ax)
        have hb : ∀ i ∈ l, i < (o.axis ax).len := by
          intro i hi
          obtain ⟨n, hn⟩ := List.getElem?_of_mem hi
          have hlen := hF.length_eq
          have hnl := (List.getElem?_eq_some_iff.1 hn).1
          have := (List.forall₂_iff_get.1 hF).2 n (by omega) hnl
          have hget : l.get ⟨n, hnl⟩ = i := by
            have := (List.getElem?_eq_some_iff.1 hn).2; simpa using this
          rw [hget] at this; exact this.2
        have hf : (List.range (o.axis ax).len).filter (inLimit (some l)) = l :=
          range_filter_of_sorted (ha.1 l hg) hb
        rw [hf]
        have hagree := ha.2
        clear hloop hr hf hb hg ha
        induction hF with
        | nil => exact .nil
        | cons hh _ ih =>
          refine .cons ?_ (ih (fun id hid => hagree id (by simp [hid])) )
          intro k hk
          have := hagree _ (by simp) k hk
          rw [hh.1] at this
          cases this; rfl

/-! ### Non-vacuity and refutations -/

/-- Two points, one feature, no names. -/
def fillEx : Obj Nat := ⟨[[1], [2]], ⟨2, none⟩, ⟨1, none⟩⟩
/-- A boolean object of the same shape marking the first point only. -/
def fillExMatch : Obj Bool := ⟨[[true], [false]], ⟨2, none⟩, ⟨1, none⟩⟩

/-- `fill.constant` as a fill function with constant 0. -/
def fillZero (v : List Nat) (b : List Bool) : Res (List Nat) := .ok (Fill.constant 0 v b)

theorem fillEx_WF : fillEx.WF := ⟨rfl, by decide, none_ok 2, none_ok 1⟩

example : fillMatching fillZero (.obj fillExMatch) fillEx .point (.list [.int 0, .int 1]) =
    (⟨[[0], [2]], ⟨2, none⟩, ⟨1, none⟩⟩, .ok ()) := rfl
example : fillMatching fillZero (.func (fun x => x == 2)) fillEx .point (.list [.int 1, .int 0]) =
    (⟨[[1], [0]], ⟨2, none⟩, ⟨1, none⟩⟩, .ok ()) := rfl
example : Limit.Aligned fillEx fillExMatch .point (.list [.int 0, .int 1]) := by
  refine ⟨?_, ?_⟩
  · intro l hl
    have : resolveIdents (fillEx.axis .point) [.int 0, .int 1] = .ok [0, 1] := rfl
    rw [this] at hl; cases hl; decide
  · intro id hid k hk
    rcases List.mem_cons.1 hid with rfl | hid
    · exact hk
    · rw [List.mem_singleton] at hid; subst hid; exact hk

/-- The claim is false for an unsorted `points` argument with a boolean object: filling
`points=[1, 0]` of `[[1], [2]]` where only point 0 matches changes point 1 instead of point 0. -/
theorem C28_fillMatching_order_violated :
    ∃ (o : Obj Nat) (b : Obj Bool), o.WF ∧
      ¬ FillMatchingCorrect fillZero (.obj b) o .point (.list [.int 1, .int 0]) := by
  refine ⟨fillEx, fillExMatch, fillEx_WF, ?_⟩
  intro hc
  obtain ⟨want, hd, hT⟩ := hc ⟨[[1], [0]], ⟨2, none⟩, ⟨1, none⟩⟩ rfl
  have hw : want 1 = true := by
    rcases hd with ⟨h, _⟩ | ⟨l, idx, hl, hres, hw⟩
    · cases h
    · cases hl
      have : resolveIdents (fillEx.axis .point) [.int 1, .int 0] = .ok [1, 0] := rfl
      rw [this] at hres; cases hres
      rw [hw]; rfl
  have := hT.done 1 (by decide) hw
  exact absurd this (by decide)

/-- Points named "ab" and "a". -/
def fillExNamed : Obj Nat :=
  ⟨[[1], [2]], ⟨2, some ⟨[("ab", 0), ("a", 1)], [some "ab", some "a"]⟩⟩, ⟨1, none⟩⟩
def fillExNamedMatch : Obj Bool :=
  ⟨[[true], [false]], ⟨2, some ⟨[("ab", 0), ("a", 1)], [some "ab", some "a"]⟩⟩, ⟨1, none⟩⟩

/-- The claim is false for a point name with a boolean object: the iterator runs over the
characters of the name, so `points="ab"` consults the row of point "a" (and raises when there is no
such point). -/
theorem C28_fillMatching_name_violated :
    fillMatching fillZero (.obj fillExNamedMatch) fillExNamed .point (.name "ab") =
      (fillExNamed, .ok ()) ∧
    ¬ FillMatchingCorrect fillZero (.obj fillExNamedMatch) fillExNamed .point (.name "ab") := by
  have hrun : fillMatching fillZero (.obj fillExNamedMatch) fillExNamed .point (.name "ab") =
      (fillExNamed, .ok ()) := by
    with_unfolding_all decide +kernel
  refine ⟨hrun, fun hc => ?_⟩
  obtain ⟨want, hd, hT⟩ := hc _ hrun
  have hw : want 0 = true := by
    rcases hd with ⟨h, _⟩ | ⟨l, idx, hl, hres, hw⟩
    · cases h
    · cases hl
      have : resolveIdents (fillExNamed.axis .point) [.str "ab"] = .ok [0] := by
        with_unfolding_all decide +kernel
      rw [this] at hres; cases hres
      rw [hw]; rfl
  have := hT.done 0 (by decide) hw
  exact absurd this (by decide)

/-- A transformation that raises on a later point has already changed the earlier ones: the
function doubles and refuses the point `[2]`. -/
theorem C52_transform_atomic_violated :
    ∃ (o : Obj Nat) (f : List Nat → Res (List Nat)) (o' : Obj Nat) (e : Err), o.WF ∧
      transform f o .point none = (o', .error e) ∧ o' ≠ o :=
  ⟨fillEx, fun v => if v = [2] then .error .ValueError else .ok (v.map (· * 2)),
    ⟨[[2], [2]], ⟨2, none⟩, ⟨1, none⟩⟩, .ValueError, fillEx_WF, rfl, by decide⟩

/-- **C52** (what is refused): with a non-empty object and a valid `points`/`features` argument the
call raises only if the function raises on, or returns the wrong number of values for, a selected
point. -/
theorem C52_transform_succeeds {f : List V → Res (List V)} {o : Obj V} {ax : Ax}
    {limitTo : Option (List Ident)} {want : Nat → Bool} (h : o.WF)
    (hp : o.pts.len ≠ 0) (hf : o.fts.len ≠ 0) (hd : Denotes (o.axis ax) limitTo want)
    (hok : ∀ i : Nat, i < (o.axis ax).len → want i = true →
      ∃ w, f (o.vector ax i) = .ok w ∧ w.length = (o.axis ax.off).len) :
    ∃ o', transform f o ax limitTo = (o', .ok ()) := by
  have key : ∀ (is : List Nat) (o1 : Obj V), o1.WF → is.Nodup → (∀ ax', o1.axis ax' = o.axis ax') →
      (∀ i ∈ is, i < (o.axis ax).len) → (∀ i ∈ is, o1.vector ax i = o.vector ax i) →
      ∃ o', transformLoop (fun (_ : Unit) v => (f v).map (fun w => (w, ()))) want ax is () o1 =
        (o', .ok ()) := by
    intro is
    induction is with
    | nil => intro o1 _ _ _ _ _; exact ⟨o1, rfl⟩
    | cons i is ih =>
      intro o1 hW hn hax hb hv
      have hin := List.nodup_cons.1 hn
      cases hw : want i with
      | false =>
        obtain ⟨o', ho'⟩ := ih o1 hW hin.2 hax (fun k hk => hb k (by simp [hk]))
          (fun k hk => hv k (by simp [hk]))
        exact ⟨o', by simp only [transformLoop, hw]; exact ho'⟩
      | true =>
        obtain ⟨w, hw1, hw2⟩ := hok i (hb i (by simp)) hw
        have hwl : w.length = (o1.axis ax.off).len := by rw [hax]; exact hw2
        have hc : checkedLength (o1.axis ax.off).len ((f (o1.vector ax i)).map (fun w => (w, ()))) =
            .ok (w, ()) := by
          rw [hv i (by simp), hw1]
          unfold checkedLength
          show (if w.length ≠ _ then _ else _) = _
          rw [if_neg (by omega)]; rfl
        obtain ⟨o', ho'⟩ := ih (o1.setVector ax i w) (setVector_WF hW hwl) hin.2
          (fun ax' => by rw [setVector_axis, hax]) (fun k hk => hb k (by simp [hk]))
          (fun k hk => by
            have hki : k ≠ i := by rintro rfl; exact hin.1 hk
            rw [vector_setVector hW hwl (by rw [hax]; exact hb i (by simp))
              (by rw [hax]; exact hb k (by simp [hk])), if_neg hki]
            exact hv k (by simp [hk]))
        exact ⟨o', by simp only [transformLoop, hw, hc, if_true]; exact ho'⟩
  obtain ⟨o', ho'⟩ := key (List.range (o.axis ax).len) o h List.nodup_range (fun _ => rfl) (by simp)
    (fun _ _ => rfl)
  refine ⟨o', ?_⟩
  unfold transform transformWith
  rw [if_neg hp, if_neg hf]
  rcases hd with ⟨rfl, hw⟩ | ⟨l, idx, rfl, hres, hw⟩
  · simp only [resolveLimit]
    rw [show inLimit none = want from funext (fun i => (hw i).symm)]; exact ho'
  · simp only [resolveLimit, hres, Except.map]
    rw [show inLimit (some idx) = want from funext (fun i => (hw i).symm)]; exact ho'

end Obj
end Nimble
