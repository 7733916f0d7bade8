import Verif.Spec
import Verif.Model.RepeatUnique
import Verif.Props.Create
import Verif.Lemmas.Structural
import Verif.Lemmas.Insert
import Verif.Lemmas.Permute

/-!
# C35 repeat and unique
-/

namespace Nimble
variable {V : Type}

/-! ## unique -/

/-- The indices of first occurrences: no earlier vector is equal. -/
def firstIdx [DecidableEq V] (vecs : List (List V)) : List Nat :=
  (List.range vecs.length).filter (fun i => ∀ j < i, vecs[j]? ≠ vecs[i]?)

theorem uniqueLoop_eq [DecidableEq V] (pre post seen : List (List V))
    (hs : ∀ v, v ∈ seen ↔ v ∈ pre) :
    uniqueLoop post pre.length seen =
      (List.range' pre.length post.length).filter
        (fun i => ∀ j < i, (pre ++ post)[j]? ≠ (pre ++ post)[i]?) := by
  induction post generalizing pre seen with
  | nil => rfl
  | cons v vs ih =>
    have key : (∀ j < pre.length, (pre ++ v :: vs)[j]? ≠ (pre ++ v :: vs)[pre.length]?) ↔ v ∉ pre := by
      constructor
      · intro h hc
        obtain ⟨j, hj, hjv⟩ := List.getElem_of_mem hc
        apply h j hj
        rw [List.getElem?_append_left hj, List.getElem?_eq_getElem hj, hjv]
        simp
      · intro h j hj hc
        rw [List.getElem?_append_left hj] at hc
        simp only [List.getElem?_append_right (Nat.le_refl _), Nat.sub_self, List.getElem?_cons_zero] at hc
        exact h (List.mem_of_getElem? hc)
    have e : pre ++ v :: vs = (pre ++ [v]) ++ vs := by simp
    have hl : pre.length + 1 = (pre ++ [v]).length := by simp
    rw [List.length_cons, List.range'_succ, List.filter_cons, uniqueLoop]
    by_cases h : v ∈ pre
    · rw [if_pos ((hs v).2 h), if_neg (by simpa using fun hh => (key.1 hh) h)]
      rw [e, hl]
      apply ih
      intro w; rw [hs w]; simp; intro hw; exact hw ▸ h
    · rw [if_neg (fun hc => h ((hs v).1 hc)), if_pos (by simpa using key.2 h)]
      rw [e, hl]
      congr 1
      apply ih
      intro w; simp [hs w, or_comm]

theorem uniqueLoop_firstIdx [DecidableEq V] (vecs : List (List V)) :
    uniqueLoop vecs 0 [] = firstIdx vecs := by
  have := uniqueLoop_eq [] vecs [] (by simp)
  simpa [firstIdx, List.range_eq_range'] using this

theorem firstIdx_bound [DecidableEq V] {vecs : List (List V)} : ∀ i ∈ firstIdx vecs, i < vecs.length := by
  intro i hi; simp [firstIdx] at hi; exact hi.1

theorem firstIdx_nodup [DecidableEq V] (vecs : List (List V)) : (firstIdx vecs).Nodup :=
  List.nodup_range.filter _

theorem firstIdx_first [DecidableEq V] {vecs : List (List V)} {i j : Nat} (hi : i ∈ firstIdx vecs)
    (hj : j ∈ firstIdx vecs) (e : vecs[i]? = vecs[j]?) : i = j := by
  simp only [firstIdx, List.mem_filter, List.mem_range, decide_eq_true_eq] at hi hj
  rcases Nat.lt_trichotomy i j with h | h | h
  · exact absurd e (hj.2 i h)
  · exact h
  · exact absurd e.symm (hi.2 j h)

/-- The kept vectors are distinct, and every vector is among them. -/
theorem pick_firstIdx [DecidableEq V] (vecs : List (List V)) :
    (pick vecs (firstIdx vecs)).Nodup ∧ ∀ v, v ∈ pick vecs (firstIdx vecs) ↔ v ∈ vecs := by
  constructor
  · rw [List.nodup_iff_pairwise_ne]
    unfold pick
    rw [List.pairwise_filterMap]
    have := firstIdx_nodup vecs
    refine List.Pairwise.imp_of_mem ?_ this
    intro i j hi hj hne v hv w hw hc
    subst hc
    exact hne (firstIdx_first hi hj (hv.trans hw.symm))
  · intro v
    rw [mem_pick]
    constructor
    · rintro ⟨i, _, h⟩; exact List.mem_of_getElem? h
    · intro hv
      obtain ⟨i, hi⟩ := List.getElem?_of_mem hv
      induction i using Nat.strong_induction_on with
      | _ i ih =>
        by_cases h : ∃ j < i, vecs[j]? = vecs[i]?
        · obtain ⟨j, hj, e⟩ := h
          exact ih j hj (e.trans hi)
        · refine ⟨i, ?_, hi⟩
          have hl : i < vecs.length := by
            by_contra hc
            rw [List.getElem?_eq_none (by omega)] at hi
            cases hi
          simp only [firstIdx, List.mem_filter, List.mem_range, decide_eq_true_eq]
          exact ⟨hl, fun j hj e => h ⟨j, hj, e⟩⟩

namespace Obj

/-- All vectors of an object along an axis. -/
def vectors (o : Obj V) (ax : Ax) : List (List V) := (List.range (o.axis ax).len).map (o.vector ax)

theorem length_vectors (o : Obj V) (ax : Ax) : (o.vectors ax).length = (o.axis ax).len := by
  simp [vectors]

/-- `r` is what `unique` documents: of the lines of `o` (values and name) exactly the first
occurrences, in order; the other axis unchanged. -/
structure UniqueOf [DecidableEq V] (o r : Obj V) (ax : Ax) : Prop where
  wf : r.WF
  lines : r.lines ax = pick (o.lines ax) (firstIdx (o.vectors ax))
  offLen : (r.axis ax.off).len = (o.axis ax.off).len
  offNames : (r.axis ax.off).getNames = (o.axis ax.off).getNames

theorem uniqueNames_explicit {a : AxisSt} (ha : a.Ok) {idx : List Nat} (hb : ∀ i ∈ idx, i < a.len)
    (hn : idx.Nodup) :
    (uniqueNames a idx ≠ .auto ∧ uniqueNames a idx ≠ .yes) ∧
    goodNames idx.length (uniqueNames a idx).explicit ∧
    (uniqueNames a idx).explicit.getD (List.replicate idx.length none) = pick a.getNames idx := by
  unfold uniqueNames
  cases ht : a.tbl with
  | none =>
    refine ⟨by simp, trivial, ?_⟩
    simp only [NamesArg.explicit, Option.getD_none, AxisSt.getNames, ht]
    symm
    rw [List.eq_replicate_iff]
    refine ⟨length_pick (by simpa using hb), ?_⟩
    intro x hx
    rw [mem_pick] at hx
    obtain ⟨i, _, h⟩ := hx
    exact (List.eq_replicate_iff.1 rfl).2 x (List.mem_of_getElem? h)
  | some t =>
    have hok := ha t ht
    refine ⟨by simp, ⟨?_, ?_⟩, ?_⟩
    · exact length_pick (by rw [hok.length_inv]; exact hb)
    · exact reduceOption_pick_nodup hok.reduceOption_nodup hn
    · simp [NamesArg.explicit, AxisSt.getNames, ht]

theorem pick_self_of_length {idx : List Nat} {n : Nat} (h : idx.Sublist (List.range n))
    (hl : idx.length = n) : idx = List.range n := h.eq_of_length (by simp [hl])

/-- **C35 (unique).**  `unique` keeps exactly the first occurrence of each distinct point (feature),
in order and with its name, and leaves the other axis unchanged, provided no stored value is one
that `nimble.data` replaces by nan (`C35_unique_missing_violated`).  -/
theorem C35_unique_partial [DecidableEq V] (C : CellOps V) {o : Obj V} (h : o.WF) (ax : Ax)
    (hoff : 0 < (o.axis ax.off).len) (hs : ∀ row ∈ o.data, ∀ v ∈ row, C.stored v = v) :
    ∃ r, o.unique C ax = .ok r ∧ UniqueOf o r ax := by
  have hb : ∀ i ∈ firstIdx (o.vectors ax), i < (o.axis ax).len := by
    intro i hi; rw [← length_vectors]; exact firstIdx_bound i hi
  have hn := firstIdx_nodup (o.vectors ax)
  have hsub : (firstIdx (o.vectors ax)).Sublist (List.range (o.axis ax).len) := by
    unfold firstIdx; rw [length_vectors]; exact List.filter_sublist
  have hidx : uniqueLoop ((List.range (o.axis ax).len).map (o.vector ax)) 0 [] =
      firstIdx (o.vectors ax) := uniqueLoop_firstIdx _
  unfold Obj.unique
  simp only [hidx]
  generalize hI : firstIdx (o.vectors ax) = idx at *
  by_cases hd : o.data = selData ax o.data idx
  · rw [if_pos hd]
    refine ⟨o, rfl, h, ?_, rfl, rfl⟩
    have hl : idx.length = (o.axis ax).len := by
      cases ax with
      | point =>
        have := congrArg List.length hd
        rw [length_selData_point h hb, h.rows] at this
        exact this.symm
      | feature =>
        cases hdat : o.data with
        | nil =>
          have : o.pts.len = 0 := by rw [← h.rows, hdat]; rfl
          simp only [Ax.off, Obj.axis] at hoff; omega
        | cons r rs =>
          have h1 := h.cols r (by rw [hdat]; simp)
          rw [hdat] at hd
          simp only [selData, List.map_cons, List.cons.injEq] at hd
          have h2 := congrArg List.length hd.1
          rw [length_pick (by intro i hi; rw [h1]; exact hb i hi), h1] at h2
          exact h2.symm
    rw [hI, pick_self_of_length hsub hl]
    exact (pick_range_of_eq _ (length_lines o ax).symm).symm
  · rw [if_neg hd]
    have hrangeb : ∀ (a : AxisSt), ∀ i ∈ List.range a.len, i < a.len := by simp
    have hstored : ∀ {l : List (List V)}, (∀ row ∈ l, ∀ v ∈ row, C.stored v = v) →
        l.map (fun r => r.map C.stored) = l := by
      intro l hl
      conv_rhs => rw [← List.map_id l]
      apply List.map_congr_left
      intro r hr
      conv_rhs => rw [id, ← List.map_id r]
      exact List.map_congr_left (fun v hv => hl r hr v hv)
    cases ax with
    | point =>
      obtain ⟨p1, p2, p3⟩ := uniqueNames_explicit h.pts hb hn
      obtain ⟨f1, f2, f3⟩ := uniqueNames_explicit h.fts (hrangeb o.fts) List.nodup_range
      have hlen := length_selData_point h hb
      have hmem : ∀ row ∈ selData .point o.data idx, row ∈ o.data := by
        intro row hrow
        obtain ⟨i, _, hi⟩ := mem_pick.1 hrow
        exact List.mem_of_getElem? hi
      have hne : selData .point o.data idx ≠ [] := by
        intro hc
        rw [hc] at hlen
        have hz : idx = [] := List.eq_nil_of_length_eq_zero hlen.symm
        have : (o.vectors .point) = [] := by
          rw [List.eq_nil_iff_forall_not_mem]
          intro v hv
          have := ((pick_firstIdx (o.vectors .point)).2 v).2 hv
          rw [hI, hz] at this
          simp [pick] at this
        have h0 : o.pts.len = 0 := by
          have e := congrArg List.length this
          rw [length_vectors] at e; exact e
        rw [← h.rows] at h0
        apply hd
        rw [hc]; exact List.eq_nil_of_length_eq_zero h0
      obtain ⟨r, hr1, hr2⟩ := C53_data_explicit C (rows := selData .point o.data idx) (n := o.fts.len)
        hoff hne (fun row hrow => h.cols row (hmem row hrow)) p1 f1 (by rw [hlen]; exact p2)
        (by simpa using f2)
      rw [hstored (fun row hrow => hs row (hmem row hrow))] at hr2
      refine ⟨r, hr1, hr2.wf, ?_, hr2.fts, ?_⟩
      · rw [hI]
        apply lines_select h hb hr2.data
        · show r.pts.len = _
          rw [← hr2.wf.rows, hr2.data, hlen]
        · show r.pts.getNames = _
          rw [hr2.pnames, hlen]; exact p3
      · show r.fts.getNames = o.fts.getNames
        rw [hr2.fnames]
        have : (List.range o.fts.len).length = o.fts.len := by simp
        rw [this] at f3
        rw [f3]; exact pick_range_of_eq _ h.fts.length_getNames.symm
    | feature =>
      obtain ⟨p1, p2, p3⟩ := uniqueNames_explicit h.pts (hrangeb o.pts) List.nodup_range
      obtain ⟨f1, f2, f3⟩ := uniqueNames_explicit h.fts hb hn
      have hlen : (selData .feature o.data idx).length = o.pts.len := by simp [selData, h.rows]
      have hcols := selData_cols_feature h hb
      have hne : selData .feature o.data idx ≠ [] := by
        intro hc; rw [hc] at hlen
        simp only [Ax.off, Obj.axis] at hoff
        simp at hlen; omega
      have hpos : 0 < idx.length := by
        by_contra hc
        have hz : idx = [] := List.eq_nil_of_length_eq_zero (by omega)
        have : (o.vectors .feature) = [] := by
          rw [List.eq_nil_iff_forall_not_mem]
          intro v hv
          have := ((pick_firstIdx (o.vectors .feature)).2 v).2 hv
          rw [hI, hz] at this
          simp [pick] at this
        have h0 : o.fts.len = 0 := by
          have e := congrArg List.length this
          rw [length_vectors] at e; exact e
        apply hd
        rw [hz]
        simp only [selData, pick_nil]
        conv_lhs => rw [← List.map_id o.data]
        apply List.map_congr_left
        intro row hrow
        exact List.eq_nil_of_length_eq_zero (by rw [id, h.cols row hrow, h0])
      have hst : ∀ row ∈ selData .feature o.data idx, ∀ v ∈ row, C.stored v = v := by
        intro row hrow v hv
        obtain ⟨row0, h0, rfl⟩ := List.mem_map.1 hrow
        obtain ⟨i, _, hi⟩ := mem_pick.1 hv
        exact hs row0 h0 v (List.mem_of_getElem? hi)
      obtain ⟨r, hr1, hr2⟩ := C53_data_explicit C (rows := selData .feature o.data idx)
        (n := idx.length) hpos hne hcols p1 f1 (by rw [hlen]; simpa using p2) f2
      rw [hstored hst] at hr2
      refine ⟨r, hr1, hr2.wf, ?_, ?_, ?_⟩
      · rw [hI]
        exact lines_select h hb hr2.data hr2.fts (by
          show r.fts.getNames = _
          rw [hr2.fnames]; exact f3)
      · show r.pts.len = o.pts.len
        rw [← hr2.wf.rows, hr2.data, hlen]
      · show r.pts.getNames = o.pts.getNames
        rw [hr2.pnames, hlen]
        have : (List.range o.pts.len).length = o.pts.len := by simp
        rw [this] at p3
        rw [p3]; exact pick_range_of_eq _ h.pts.length_getNames.symm

theorem vectors_eq_lines (o : Obj V) (ax : Ax) : o.vectors ax = (o.lines ax).map Prod.snd := by
  simp [vectors, lines, Function.comp_def]

/-- **C35 (unique, consequences).**  After `unique` no point (feature) occurs twice and every one
of the original ones is still there. -/
theorem C35_unique_distinct [DecidableEq V] {o r : Obj V} {ax : Ax} (hu : UniqueOf o r ax) :
    (r.vectors ax).Nodup ∧ ∀ v, v ∈ r.vectors ax ↔ v ∈ o.vectors ax := by
  have e : r.vectors ax = pick (o.vectors ax) (firstIdx (o.vectors ax)) := by
    rw [vectors_eq_lines, hu.lines, ← pick_map, ← vectors_eq_lines]
  rw [e]; exact pick_firstIdx _

theorem firstIdx_of_nodup [DecidableEq V] {vecs : List (List V)} (hn : vecs.Nodup) :
    firstIdx vecs = List.range vecs.length := by
  unfold firstIdx
  rw [List.filter_eq_self]
  intro i hi
  simp only [List.mem_range] at hi
  simp only [decide_eq_true_eq]
  intro j hj e
  have := (List.getElem?_inj (by omega) hn).1 e
  omega

/-- **C35 (unique is idempotent).**  A second `unique` returns the same object again. -/
theorem C35_unique_idempotent [DecidableEq V] (C : CellOps V) {o r : Obj V} {ax : Ax}
    (hu : UniqueOf o r ax) : r.unique C ax = .ok r := by
  have hn := (C35_unique_distinct hu).1
  have hidx : uniqueLoop ((List.range (r.axis ax).len).map (r.vector ax)) 0 [] =
      List.range (r.axis ax).len := by
    rw [uniqueLoop_firstIdx]
    have := firstIdx_of_nodup hn
    rw [length_vectors] at this
    exact this
  unfold Obj.unique
  simp only [hidx]
  rw [if_pos (selData_range hu.wf ax).symm]

/-- **C35 violated (values).**  `unique` passes the kept points through `nimble.data`, which turns
the texts `'NA'`, `'None'`, `''`, ... into nan: a kept value is altered. -/
theorem C35_unique_missing_violated :
    ∃ r, (⟨[[.str "NA"], [.str "NA"]], ⟨2, none⟩, ⟨1, none⟩⟩ : Obj Cell).unique (cellOps .nan) .point = .ok r ∧
      r.data = [[.nan]] := ⟨_, rfl, rfl⟩

/-- Without points every feature is kept, although all of them are equal. -/
theorem C35_unique_no_points_violated :
    ∃ r, (⟨[], ⟨0, none⟩, ⟨2, none⟩⟩ : Obj Cell).unique (cellOps .nan) .feature = .ok r ∧
      r.fts.len = 2 ∧ r.vector .feature 0 = r.vector .feature 1 := ⟨_, rfl, rfl, rfl⟩

/-- The hypotheses of `C35_unique_partial` are met, with a non-trivial result. -/
example : ∃ r, (⟨[[.num 1, .str "x"], [.num 2, .str "x"], [.num 1, .str "x"]],
    ⟨3, some ⟨[("a", 0), ("b", 1), ("c", 2)], [some "a", some "b", some "c"]⟩⟩, ⟨2, none⟩⟩ : Obj Cell).unique
      (cellOps .nan) .point = .ok r ∧ r.pts.getNames = [some "a", some "b"] := ⟨_, rfl, rfl⟩

/-! ## repeat -/

end Obj

theorem append_sep_inj {a b d e : List Char} (hd : '_' ∉ d) (he : '_' ∉ e)
    (h : a ++ '_' :: d = b ++ '_' :: e) : a = b ∧ d = e := by
  rcases List.append_eq_append_iff.1 h with ⟨x, h1, h2⟩ | ⟨x, h1, h2⟩
  · cases x with
    | nil => simp at h1 h2; exact ⟨h1.symm, h2⟩
    | cons c x =>
      simp only [List.cons_append, List.cons.injEq] at h2
      exact absurd (by rw [h2.2]; simp) hd
  · cases x with
    | nil => simp at h1 h2; exact ⟨h1, h2.symm⟩
    | cons c x =>
      simp only [List.cons_append, List.cons.injEq] at h2
      exact absurd (by rw [h2.2]; simp) he

/-- The new names are determined by, and determine, the old name and the copy number. -/
theorem copyName_inj {s t : String} {i j : Nat}
    (h : s ++ "_" ++ Nat.repr (i + 1) = t ++ "_" ++ Nat.repr (j + 1)) : s = t ∧ i = j := by
  have h' := congrArg String.toList h
  simp only [String.toList_append, Nat.toList_repr] at h'
  have e : "_".toList = ['_'] := rfl
  rw [e, List.append_assoc, List.append_assoc, List.singleton_append, List.singleton_append] at h'
  obtain ⟨h1, h2⟩ := append_sep_inj Nat.underscore_not_in_toDigits Nat.underscore_not_in_toDigits h'
  refine ⟨String.toList_inj.1 h1, ?_⟩
  have := congrArg (fun l => Nat.ofDigitChars 10 l 0) h2
  simp only [Nat.ofDigitChars_ten_toDigits] at this
  omega

/-- `(index, copy number)` in the order of the result. -/
def copies (vbv : Bool) (n k : Nat) : List (Nat × Nat) :=
  if vbv then (List.range n).flatMap (fun idx => (List.range k).map (fun i => (idx, i)))
  else (List.range k).flatMap (fun i => (List.range n).map (fun idx => (idx, i)))

theorem mem_copies {vbv : Bool} {n k : Nat} {e : Nat × Nat} :
    e ∈ copies vbv n k ↔ e.1 < n ∧ e.2 < k := by
  obtain ⟨a, b⟩ := e
  unfold copies
  split <;> simp [and_comm]

theorem length_copies (vbv : Bool) (n k : Nat) : (copies vbv n k).length = n * k := by
  unfold copies
  split <;> simp [List.length_flatMap, Nat.mul_comm]

theorem nodup_copies (vbv : Bool) (n k : Nat) : (copies vbv n k).Nodup := by
  unfold copies
  split
  · rw [List.nodup_flatMap]
    refine ⟨fun a _ => List.nodup_range.map (fun x y h => by simpa using h), ?_⟩
    refine List.nodup_range.imp ?_
    intro a b hab
    simp only [Function.onFun, List.disjoint_left, List.mem_map, not_exists]
    rintro x ⟨i, _, rfl⟩ j ⟨_, hj⟩
    simp at hj; exact hab hj.1.symm
  · rw [List.nodup_flatMap]
    refine ⟨fun a _ => List.nodup_range.map (fun x y h => by simpa using h), ?_⟩
    refine List.nodup_range.imp ?_
    intro a b hab
    simp only [Function.onFun, List.disjoint_left, List.mem_map, not_exists]
    rintro x ⟨i, _, rfl⟩ j ⟨_, hj⟩
    simp at hj; exact hab hj.2.symm

theorem repeatList_range (vbv : Bool) (k n : Nat) :
    repeatList vbv k (List.range n) = (copies vbv n k).map Prod.fst := by
  unfold repeatList copies
  split
  · simp [List.map_flatMap, Function.comp_def]
  · simp [List.map_flatMap, Function.comp_def, List.flatMap_def]

theorem pick_repeatList {A : Type} (l : List A) (vbv : Bool) (k : Nat) :
    pick l (repeatList vbv k (List.range l.length)) = repeatList vbv k l := by
  unfold repeatList
  split
  · have : ∀ is : List Nat, pick l (is.flatMap (fun v => List.replicate k v)) =
        (pick l is).flatMap (fun v => List.replicate k v) := by
      intro is
      induction is with
      | nil => rfl
      | cons i is ih =>
        rw [List.flatMap_cons, pick_append, ih]
        cases h : l[i]? with
        | none => simp [pick, h]
        | some v => simp [pick, h]
    rw [this, pick_range]
  · induction k with
    | zero => rfl
    | succ k ih => rw [List.replicate_succ, List.flatten_cons, pick_append, ih, pick_range,
        List.replicate_succ, List.flatten_cons]

theorem selData_repeat {o : Obj V} (h : o.WF) (ax : Ax) (vbv : Bool) (k : Nat) :
    repeatData ax vbv k o.data =
      Obj.selData ax o.data (repeatList vbv k (List.range (o.axis ax).len)) := by
  cases ax with
  | point =>
    show repeatList vbv k o.data = pick o.data (repeatList vbv k (List.range o.pts.len))
    rw [← h.rows, pick_repeatList]
  | feature =>
    show o.data.map _ = o.data.map _
    apply List.map_congr_left
    intro row hrow
    show _ = pick row (repeatList vbv k (List.range o.fts.len))
    rw [← h.cols row hrow, pick_repeatList]

/-- The name of copy `i` (counted from 0) of something called `name`. -/
def nameOfCopy (name : Option String) (i : Nat) : Option String :=
  name.map (fun s => s ++ "_" ++ Nat.repr (i + 1))

theorem zipIdx_eq_range {A : Type} (l : List (Option A)) :
    l.zipIdx = (List.range l.length).map (fun i => ((l[i]?).join, i)) := by
  apply List.ext_getElem?
  intro i
  by_cases h : i < l.length
  · simp [h]
  · simp [h]

theorem repeatEntries_eq (vbv : Bool) (k : Nat) (l : List (Option String)) :
    repeatEntries vbv k l =
      (copies vbv l.length k).map (fun e => ((l[e.1]?).join, e.1, e.2)) := by
  unfold repeatEntries copies
  split
  · rw [zipIdx_eq_range, List.flatMap_map, List.map_flatMap]
    simp [Function.comp_def]
  · rw [zipIdx_eq_range, List.map_flatMap]
    simp [Function.comp_def]

/-- Where an entry is stored. -/
def copyPos (vbv : Bool) (n k : Nat) (e : Nat × Nat) : Nat := if vbv then k * e.1 + e.2 else n * e.2 + e.1

theorem range_map_add (a n : Nat) : (List.range n).map (fun i => a + i) = List.range' a n := by
  rw [List.range_eq_range', List.map_add_range']; rfl

theorem copies_pos (vbv : Bool) (n k : Nat) :
    (copies vbv n k).map (copyPos vbv n k) = List.range (n * k) := by
  unfold copies copyPos
  split
  · have : ∀ m, ((List.range m).flatMap (fun idx => (List.range k).map (fun i => (idx, i)))).map
        (fun e => k * e.1 + e.2) = List.range (m * k) := by
      intro m
      induction m with
      | zero => simp
      | succ m ih =>
        rw [List.range_succ, List.flatMap_append, List.map_append, ih]
        simp only [List.flatMap_cons, List.flatMap_nil, List.append_nil, List.map_map,
          Function.comp_def]
        rw [range_map_add, List.range_eq_range', List.range_eq_range', Nat.succ_mul,
          ← List.range'_append_1, Nat.zero_add, Nat.mul_comm k m]
    simpa using this n
  · have : ∀ m, ((List.range m).flatMap (fun i => (List.range n).map (fun idx => (idx, i)))).map
        (fun e => n * e.2 + e.1) = List.range (n * m) := by
      intro m
      induction m with
      | zero => simp
      | succ m ih =>
        rw [List.range_succ, List.flatMap_append, List.map_append, ih]
        simp only [List.flatMap_cons, List.flatMap_nil, List.append_nil, List.map_map,
          Function.comp_def]
        rw [range_map_add, List.range_eq_range', List.range_eq_range', Nat.mul_succ,
          ← List.range'_append_1, Nat.zero_add]
    simpa using this k

/-- Storing at successive positions. -/
theorem foldRes_store {E : Type} (step : List (Option String) → E → Res (List (Option String)))
    (pos : E → Nat) (val : E → Option String) (n : Nat) (orig : List (Option String))
    (hn : orig.length = n) :
    ∀ (es : List E) (done : List (Option String)), es.map pos = List.range' done.length es.length →
      (∀ e ∈ es, ∀ names, step names e =
        .ok (if pos e < n then names.set (pos e) (val e) else names ++ [val e])) →
      foldRes step es (done ++ orig.drop done.length) =
        .ok (done ++ es.map val ++ orig.drop (done.length + es.length)) := by
  intro es
  induction es with
  | nil => intro done _ _; simp [foldRes]
  | cons e es ih =>
    intro done hp hs
    simp only [List.map_cons, List.length_cons, List.range'_succ, List.cons.injEq] at hp
    have h1 : (if pos e < n then (done ++ orig.drop done.length).set (pos e) (val e)
        else (done ++ orig.drop done.length) ++ [val e]) =
        (done ++ [val e]) ++ orig.drop (done.length + 1) := by
      rw [hp.1]
      split
      · next h =>
        rw [List.set_append_right _ _ (Nat.le_refl _)]
        have hdr : orig.drop done.length = orig[done.length]'(by omega) :: orig.drop (done.length + 1) :=
          List.drop_eq_getElem_cons (by omega)
        rw [hdr, Nat.sub_self, List.set_cons_zero, List.append_assoc, List.singleton_append]
      · next h =>
        rw [List.drop_of_length_le (by omega), List.drop_of_length_le (by omega)]
        simp
    have h2 := ih (done ++ [val e]) (by simpa using hp.2) (fun e' he' => hs e' (by simp [he']))
    simp only [foldRes, hs e (by simp), bind, Except.bind, h1]
    simp only [List.length_append, List.length_singleton] at h2
    rw [h2]
    simp [Nat.add_assoc, Nat.add_comm 1]

/-- The loop produces the new names in order. -/
theorem repeatNames_ok (vbv : Bool) {k : Nat} (hk : 0 < k) {l : List (Option String)}
    (hl : ∀ x ∈ l, x ≠ none) :
    repeatNames vbv k l =
      .ok ((copies vbv l.length k).map (fun e => nameOfCopy (l[e.1]?).join e.2)) := by
  have hsome : ∀ e ∈ copies vbv l.length k, ∃ s, (l[e.1]?).join = some s := by
    intro e he
    have h1 := (mem_copies.1 he).1
    rw [List.getElem?_eq_getElem h1]
    have := hl _ (List.getElem_mem h1)
    obtain ⟨s, hs⟩ := Option.ne_none_iff_exists'.1 this
    exact ⟨s, by simpa using hs⟩
  unfold repeatNames
  rw [repeatEntries_eq]
  have step := foldRes_store (if vbv then storeVbv k l.length else storeBlock)
    (fun e => copyPos vbv l.length k e.2) (fun e => nameOfCopy e.1 e.2.2) l.length l rfl
    ((copies vbv l.length k).map (fun e => ((l[e.1]?).join, e.1, e.2))) [] (by
      rw [List.map_map]
      have := copies_pos vbv l.length k
      rw [List.length_map, length_copies]
      rw [List.range_eq_range'] at this
      simpa [Function.comp_def] using this) (by
      intro e he names
      obtain ⟨e0, he0, rfl⟩ := List.mem_map.1 he
      obtain ⟨s, hs⟩ := hsome e0 he0
      have h1 := (mem_copies.1 he0).1
      simp only [hs]
      cases vbv with
      | true =>
        simp only [if_true, storeVbv, copyName, copyPos, bind, Except.bind, nameOfCopy, Option.map_some,
          pure, Except.pure]
        split <;> rfl
      | false =>
        simp only [Bool.false_eq_true, if_false, storeBlock, copyName, copyPos, bind, Except.bind, nameOfCopy,
          Option.map_some, pure, Except.pure]
        by_cases h0 : e0.2 = 0
        · rw [if_pos h0, if_pos (by rw [h0]; omega), h0]; simp
        · rw [if_neg h0, if_neg]
          have : 0 < e0.2 := Nat.pos_of_ne_zero h0
          have := Nat.le_mul_of_pos_right l.length this
          omega)
  simp only [List.nil_append, List.length_nil, List.drop_zero, Nat.zero_add] at step
  rw [step, List.length_map, length_copies,
    List.drop_of_length_le (Nat.le_mul_of_pos_right _ hk), List.append_nil, List.map_map]
  rfl

/-- What `repeat` documents: vector by vector, or the whole sequence again and again, every copy
named after the original and its number. -/
def repeatedLines (vbv : Bool) (k : Nat) (lines : List (Option String × List V)) :
    List (Option String × List V) :=
  if vbv then lines.flatMap (fun l => (List.range k).map (fun i => (nameOfCopy l.1 i, l.2)))
  else (List.range k).flatMap (fun i => lines.map (fun l => (nameOfCopy l.1 i, l.2)))

theorem repeatedLines_eq (o : Obj V) (ax : Ax) (vbv : Bool) (k : Nat) :
    repeatedLines vbv k (o.lines ax) = (copies vbv (o.axis ax).len k).map
      (fun e => (nameOfCopy (((o.axis ax).getNames[e.1]?).join) e.2, o.vector ax e.1)) := by
  unfold repeatedLines copies Obj.lines
  split
  · rw [List.flatMap_map, List.map_flatMap]; simp [Function.comp_def]
  · rw [List.map_flatMap]; simp [Function.comp_def]

theorem nodup_copyNames {l : List (Option String)} (hl : ∀ x ∈ l, x ≠ none)
    (hn : l.reduceOption.Nodup) (vbv : Bool) (k : Nat) :
    ((copies vbv l.length k).map (fun e => nameOfCopy (l[e.1]?).join e.2)).reduceOption.Nodup := by
  unfold List.reduceOption
  rw [List.filterMap_map, List.nodup_iff_pairwise_ne, List.pairwise_filterMap]
  refine List.Pairwise.imp_of_mem ?_ (nodup_copies vbv l.length k)
  intro a b ha hb hne v hv w hw hvw
  subst hvw
  simp only [Function.comp, id, nameOfCopy, Option.map_eq_some_iff] at hv hw
  obtain ⟨s, hs, hs'⟩ := hv
  obtain ⟨t, ht, ht'⟩ := hw
  obtain ⟨e1, e2⟩ := copyName_inj (hs'.trans ht'.symm)
  subst e1
  apply hne
  have ga : l[a.1]? = some (some s) := by
    have := (mem_copies.1 ha).1
    rw [List.getElem?_eq_getElem this] at hs ⊢
    simpa using hs
  have gb : l[b.1]? = some (some s) := by
    have := (mem_copies.1 hb).1
    rw [List.getElem?_eq_getElem this] at ht ⊢
    simpa using ht
  have := nodup_of_reduceOption hn ga gb
  exact Prod.ext this e2

namespace Obj

theorem makeFrom_nonempty {data : List (List V)} (hne : data ≠ []) (h1 h2 : Nat)
    (pn fn : Option (List (Option String))) : makeFrom data h1 pn fn = makeFrom data h2 pn fn := by
  cases data with
  | nil => exact absurd rfl hne
  | cons r rs => rfl

theorem repeat_axis {a : AxisSt} (ha : a.Ok) (hnames : ∀ t, a.tbl = some t → ∀ x ∈ t.inv, x ≠ none)
    (vbv : Bool) {k : Nat} (hk : 0 < k) :
    ∃ names b, repeatNames? vbv k a.getNamesNoGen = .ok names ∧
      AxisSt.init (a.len * k) names = .ok b ∧ b.Ok ∧ b.len = a.len * k ∧
      b.getNames = (copies vbv a.len k).map (fun e => nameOfCopy (a.getNames[e.1]?).join e.2) := by
  unfold AxisSt.getNamesNoGen
  cases ht : a.tbl with
  | none =>
    refine ⟨none, ⟨a.len * k, none⟩, rfl, rfl, none_ok _, rfl, ?_⟩
    simp only [AxisSt.getNames, ht]
    symm
    rw [List.eq_replicate_iff]
    refine ⟨by simp [length_copies], ?_⟩
    intro x hx
    obtain ⟨e, he, rfl⟩ := List.mem_map.1 hx
    simp [(mem_copies.1 he).1, nameOfCopy]
  | some t =>
    have hok := ha t ht
    have hx := hnames t ht
    have hN := repeatNames_ok vbv hk hx
    rw [hok.length_inv] at hN
    have hnd := nodup_copyNames hx hok.reduceOption_nodup vbv k
    rw [hok.length_inv] at hnd
    have hl : ((copies vbv a.len k).map (fun e => nameOfCopy (t.inv[e.1]?).join e.2)).length = a.len * k := by
      simp [length_copies]
    refine ⟨_, _, ?_, init_some_ok hl hnd, mk_ok hl hnd, rfl, ?_⟩
    · simp only [Option.map_some, repeatNames?, hN, Except.map]
    · simp [AxisSt.getNames, ht]

/-- **C35 (repeat).**  `repeat(k)` of an object whose axis has no names, or a name for every point
(feature), consists of exactly `k` copies of each point, in the requested arrangement, every copy
carrying the original name with its copy number; the new names are distinct and the other axis is
unchanged. -/
theorem C35_repeat_partial {o : Obj V} (h : o.WF) (ax : Ax) {k : Nat} (hk : 2 ≤ k) (vbv : Bool)
    (hnames : ∀ t, (o.axis ax).tbl = some t → ∀ x ∈ t.inv, x ≠ none)
    (hoff : ax = .feature → 0 < o.pts.len) :
    ∃ r, o.repeat ax (k : Int) vbv = .ok r ∧ r.WF ∧
      r.lines ax = repeatedLines vbv k (o.lines ax) ∧
      (r.axis ax.off).len = (o.axis ax.off).len ∧
      (r.axis ax.off).getNames = (o.axis ax.off).getNames := by
  obtain ⟨names, b, hN, hb1, hb2, hb3, hb4⟩ := repeat_axis (h.axisOk ax) hnames vbv (by omega : 0 < k)
  obtain ⟨c, hc1, hc2, hc3, hc4, _⟩ := init_same (h.axisOk ax.off)
  have hd := selData_repeat h ax vbv k
  have hib : ∀ i ∈ repeatList vbv k (List.range (o.axis ax).len), i < (o.axis ax).len := by
    rw [repeatList_range]
    intro i hi
    obtain ⟨e, he, rfl⟩ := List.mem_map.1 hi
    exact (mem_copies.1 he).1
  have hil : (repeatList vbv k (List.range (o.axis ax).len)).length = (o.axis ax).len * k := by
    rw [repeatList_range, List.length_map, length_copies]
  have hkk : (k : Int).toNat = k := by simp
  have hlines : ∀ r : Obj V, r.data = repeatData ax vbv k o.data → r.axis ax = b →
      r.lines ax = repeatedLines vbv k (o.lines ax) := by
    intro r hr1 hr2
    rw [repeatedLines_eq]
    unfold lines
    rw [hr2, hb3, hb4]
    apply List.ext_getElem?
    intro j
    by_cases hj : j < (o.axis ax).len * k
    · have hj' : j < (copies vbv (o.axis ax).len k).length := by rw [length_copies]; exact hj
      have hj2 : (repeatList vbv k (List.range (o.axis ax).len))[j]? =
          some ((copies vbv (o.axis ax).len k)[j]).1 := by
        rw [repeatList_range, List.getElem?_map, List.getElem?_eq_getElem hj']; rfl
      have hv := vector_selData h hib (hr1.trans hd) hj2
      simp [hj, hj', hv]
    · simp [hj, length_copies]
  unfold Obj.repeat
  rw [if_neg (by omega), if_neg (by omega), hkk, hN]
  cases ax with
  | point =>
    have hl : (repeatData .point vbv k o.data).length = o.pts.len * k := by
      rw [hd, length_selData_point h hib]; exact hil
    have hcol : ∀ r ∈ repeatData .point vbv k o.data, r.length = o.fts.len := by
      rw [hd]; exact selData_cols_point h
    refine ⟨⟨repeatData .point vbv k o.data, b, c⟩, ?_, ⟨?_, ?_, hb2, hc2⟩, hlines _ rfl rfl, hc3, hc4⟩
    · have hc1' : AxisSt.init o.fts.len o.fts.getNamesNoGen = .ok c := hc1
      have hb1' : AxisSt.init (o.pts.len * k) names = .ok b := hb1
      simp only [bind, Except.bind, makeFrom_eq hl hcol, make, hb1', hc1', pure, Except.pure]
    · rw [hl]; exact hb3.symm
    · intro r hr; rw [hcol r hr]; exact hc3.symm
  | feature =>
    have hl : (repeatData .feature vbv k o.data).length = o.pts.len := by
      rw [hd]; simp [selData, h.rows]
    have hcol : ∀ r ∈ repeatData .feature vbv k o.data, r.length = o.fts.len * k := by
      rw [hd]
      intro r hr
      rw [selData_cols_feature h hib r hr]; exact hil
    have hne : repeatData .feature vbv k o.data ≠ [] := by
      intro he; rw [he] at hl; have := hoff rfl; simp at hl; omega
    refine ⟨⟨repeatData .feature vbv k o.data, c, b⟩, ?_, ⟨?_, ?_, hc2, hb2⟩, hlines _ rfl rfl, hc3, hc4⟩
    · have hc1' : AxisSt.init o.pts.len o.pts.getNamesNoGen = .ok c := hc1
      have hb1' : AxisSt.init (o.fts.len * k) names = .ok b := hb1
      simp only [bind, Except.bind]
      rw [makeFrom_nonempty hne _ (o.fts.len * k), makeFrom_eq hl hcol]
      simp only [make, hb1', hc1', bind, Except.bind, pure, Except.pure]
    · rw [hl]; exact hc3.symm
    · intro r hr; rw [hcol r hr]; exact hb3.symm

/-- Fewer than one copy is refused, one copy is a plain copy (keeping the names as they are). -/
theorem C35_repeat_bounds (o : Obj V) (ax : Ax) (vbv : Bool) :
    (∀ k : Int, k < 1 → o.repeat ax k vbv = .error .InvalidArgumentType) ∧
    o.repeat ax 1 vbv = .ok o := by
  constructor
  · intro k hk; unfold Obj.repeat; rw [if_pos hk]
  · unfold Obj.repeat; rw [if_neg (by omega), if_pos rfl]

/-- **C35 violated (default names).**  If some point has a default name, or if the names have
merely been looked at (which creates default names for an unnamed axis), `repeat` raises. -/
theorem C35_repeat_default_names_violated :
    (⟨[[1], [2]], (⟨2, none⟩ : AxisSt).touch, ⟨1, none⟩⟩ : Obj Nat).repeat .point 2 true = .error .TypeError ∧
    ∃ r, (⟨[[1], [2]], ⟨2, none⟩, ⟨1, none⟩⟩ : Obj Nat).repeat .point 2 true = .ok r ∧
      r.data = [[1], [1], [2], [2]] := ⟨rfl, _, rfl, rfl⟩

/-- **C35 violated (no points).**  Repeating the unnamed features of an object without points gives
an object without features. -/
theorem C35_repeat_no_points_violated :
    ∃ r, (⟨[], ⟨0, none⟩, ⟨3, none⟩⟩ : Obj Nat).repeat .feature 2 true = .ok r ∧ r.fts.len = 0 :=
  ⟨_, rfl, rfl⟩

/-- A named object meeting the hypotheses of `C35_repeat_partial`. -/
example : ∃ r, (⟨[[1], [2]], ⟨2, some ⟨[("a", 0), ("b", 1)], [some "a", some "b"]⟩⟩, ⟨1, none⟩⟩ : Obj Nat).repeat
    .point 2 false = .ok r ∧ r.pts.getNames = [some "a_1", some "b_1", some "a_2", some "b_2"] := by
  refine ⟨_, rfl, ?_⟩
  with_unfolding_all decide +kernel

end Obj
end Nimble
