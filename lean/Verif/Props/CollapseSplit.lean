import Verif.Props.Collapse

/-!
# C36: splitting points by collapsing features, and the way back
-/

namespace Nimble
namespace Collapse
open Obj
variable {V : Type}

/-! ## Specification -/

/-- The features that are not collapsed. -/
def retained (o : Obj V) (cidx : List Nat) : List Nat :=
  (List.range o.fts.len).filter (fun i => i ∉ cidx)

/-- The documented table: for every point and every collapsed feature the retained values of the
point, the cell naming the feature and the point's value in it. -/
def collapsedTable (rows : List (List V)) (retain cidx : List Nat) (names : List V) :
    List (List V) :=
  rows.flatMap (fun r => List.zipWith (fun c v => pick r retain ++ [c, v]) names (pick r cidx))

/-- What is turned into a numpy array keeps its cells (always for `Matrix` and `DataFrame`, for
`List` when the cells have one type). -/
def KeepsCells (ops : CollapseOps V) (o : Obj V) (retain cidx : List Nat) : Prop :=
  ops.npArr (o.data.map (fun r => pick r retain)) = o.data.map (fun r => pick r retain) ∧
  ops.npArr (o.data.map (fun r => pick r cidx)) = o.data.map (fun r => pick r cidx)

/-! ## The table -/

theorem fillRows_fit (w : Nat) (rows : List (List V)) (h : ∀ r ∈ rows, r.length = w) :
    fillRows w rows = .ok rows := by
  induction rows with
  | nil => rfl
  | cons r rs ih =>
    unfold fillRows fillRow
    rw [if_pos (h r (by simp)), ih (fun r hr => h r (List.mem_cons_of_mem _ hr))]
    rfl

theorem zipWith_replicate_zip (f : List V) (names g : List V) (h : names.length = g.length) :
    List.zipWith (fun r (p : V × V) => r ++ [p.1, p.2]) (List.replicate names.length f) (names.zip g)
      = List.zipWith (fun c v => f ++ [c, v]) names g := by
  induction names generalizing g with
  | nil => simp
  | cons c cs ih =>
    cases g with
    | nil => simp at h
    | cons v vs =>
      simp only [List.length_cons, List.replicate_succ, List.zip_cons_cons, List.zipWith_cons_cons]
      rw [ih vs (by simpa using h)]

theorem collapsedRows_eq {A : Type} (f g : A → List V) (names : List V) (rows : List A)
    (h : ∀ r ∈ rows, (g r).length = names.length) :
    collapsedRows names.length rows.length (rows.map f) names (rows.map g)
      = rows.flatMap (fun r => List.zipWith (fun c v => f r ++ [c, v]) names (g r)) := by
  unfold collapsedRows
  induction rows with
  | nil => simp
  | cons r rs ih =>
    have hr := h r (by simp)
    simp only [List.length_cons, List.map_cons, List.flatMap_cons, List.replicate_succ,
      List.flatten_cons]
    rw [List.zip_append (by rw [hr]), List.zipWith_append (by simp [hr]),
      ih (fun r hr => h r (List.mem_cons_of_mem _ hr)), zipWith_replicate_zip _ _ _ hr.symm]

theorem length_nameCells (ops : CollapseOps V) (a : AxisSt) (cidx : List Nat) :
    (nameCells ops a cidx).length = cidx.length := by
  unfold nameCells
  split <;> simp

theorem resolved_length {a : AxisSt} (ha : a.Ok) {ids : List Ident} {l : List Nat}
    (h : resolveIdents a ids = .ok l) : l.length = ids.length := by
  have := congrArg List.length ((resolveIdents_ok_iff a ids l ha).1 h)
  simpa using this.symm

theorem length_splitNames (k : Nat) (names : List (Option String)) :
    (splitNames k names).length = names.length * k := by
  unfold splitNames
  induction names with
  | nil => simp
  | cons n ns ih => rw [List.flatMap_cons, List.length_append, ih]; simp [Nat.add_mul]; omega

theorem split_unfold {o : Obj V} (h : o.WF) (ops : CollapseOps V) {ids : List Ident} {cidx : List Nat}
    (hv : resolveIdents o.fts ids = .ok cidx) (hd : cidx.Nodup)
    (hk : KeepsCells ops o (retained o cidx) cidx) (fn fv : String) :
    splitByCollapsing ops o ids fn fv =
      (let o1 : Obj V := ⟨collapsedTable o.data (retained o cidx) cidx (nameCells ops o.fts cidx),
          ⟨o.pts.len * cidx.length, o.pts.tbl⟩, ⟨(retained o cidx).length + 2, o.fts.tbl⟩⟩
       match o1.fts.setNames (.list (keptNames o (retained o cidx) ++ [some fn, some fv])) with
       | .error e => (o1, .error e)
       | .ok fts =>
         match o.pts.tbl with
         | none => ({ o1 with fts := fts }, .ok ())
         | some t =>
           match o1.pts.setNames (.list (splitNames cidx.length t.inv)) with
           | .error e => ({ o1 with fts := fts }, .error e)
           | .ok pts => ({ o1 with fts := fts, pts := pts }, .ok ())) := by
  have hlen := resolved_length h.fts hv
  have hb := resolveIdents_bound h.fts hv
  have hrl : (retained o cidx).length = o.fts.len - cidx.length := length_rest hd hb
  have hle : cidx.length ≤ o.fts.len := by
    have := (hd.subperm (l₂ := List.range o.fts.len) (fun i hi => List.mem_range.2 (hb i hi))).length_le
    simpa using this
  unfold splitByCollapsing
  rw [hv]
  dsimp only
  rw [if_neg (by omega)]
  change (match fillRows _ (ops.npArr (o.data.map (fun r => pick r (retained o cidx)))) with
    | .error e => _ | .ok st => _) = _
  rw [hk.1, hk.2, fillRows_fit]
  · dsimp only
    rw [← hlen, ← hrl]
    have hcr := collapsedRows_eq (fun r => pick r (retained o cidx)) (fun r => pick r cidx)
      (nameCells ops o.fts cidx) o.data (by
        intro r hr
        rw [length_nameCells, length_pick]
        intro i hi
        rw [h.cols r hr]; exact hb i hi)
    rw [length_nameCells, h.rows] at hcr
    rw [hcr]
    rfl
  · intro r hr
    obtain ⟨row, hrow, rfl⟩ := List.mem_map.1 hr
    rw [length_pick, hrl, hlen]
    intro i hi
    rw [h.cols row hrow]; exact (mem_rest.1 hi).1

/-! ## splitByCollapsingFeatures: theorems -/

/-- The name of the `i`-th point made from a point: its name and the number, if points are named. -/
def pointLabel (o : Obj V) (nm : Option String) (i : Nat) : Option String :=
  if o.pts.tbl.isSome then some (nm.getD "None" ++ "_" ++ toString i) else none

/-- The names of all points made. -/
def pointLabels (o : Obj V) (k : Nat) : List (Option String) :=
  o.pts.getNames.flatMap (fun nm => (List.range k).map (pointLabel o nm))

theorem length_collapsedTable {o : Obj V} (h : o.WF) {cidx : List Nat} {names : List V}
    (hb : ∀ i ∈ cidx, i < o.fts.len) (hn : names.length = cidx.length) (retain : List Nat) :
    (collapsedTable o.data retain cidx names).length = o.pts.len * cidx.length := by
  unfold collapsedTable
  rw [← h.rows]
  have hc := h.cols
  generalize o.data = rows at hc
  induction rows with
  | nil => simp
  | cons r rs ih =>
    rw [List.flatMap_cons, List.length_append, ih (fun r hr => hc r (List.mem_cons_of_mem _ hr)),
      List.length_zipWith, length_pick (by
        intro i hi; rw [hc r (by simp)]; exact hb i hi), hn]
    simp [Nat.add_mul]; omega

theorem pointLabels_none {o : Obj V} (h : o.WF) (hT : o.pts.tbl = none) (k : Nat) :
    pointLabels o k = List.replicate (o.pts.len * k) none := by
  unfold pointLabels
  rw [List.eq_replicate_iff]
  constructor
  · rw [← h.pts.length_getNames]
    generalize o.pts.getNames = l
    induction l with
    | nil => simp
    | cons n ns ih => rw [List.flatMap_cons, List.length_append, ih]; simp [Nat.add_mul]; omega
  · intro x hx
    obtain ⟨nm, -, hx⟩ := List.mem_flatMap.1 hx
    obtain ⟨i, -, rfl⟩ := List.mem_map.1 hx
    simp [pointLabel, hT]

theorem pointLabels_some {o : Obj V} {t : NameTable} (hT : o.pts.tbl = some t) (k : Nat) :
    pointLabels o k = splitNames k t.inv := by
  unfold pointLabels splitNames
  rw [AxisSt.getNames_of_some hT]
  congr 1
  funext nm
  congr 1
  funext i
  unfold pointLabel
  rw [if_pos (by rw [hT]; rfl)]

/-- `splitByCollapsingFeatures` gives the documented table: a point for every point and collapsed
feature, in this order, with the retained values, the feature's name and the value; the names are
those of the retained features and the two given ones; a named point's points carry its name and
their number.  The result is well formed. -/
theorem C36_split {o r : Obj V} (h : o.WF) (ops : CollapseOps V) {ids : List Ident} {cidx : List Nat}
    (hv : resolveIdents o.fts ids = .ok cidx) (hd : cidx.Nodup)
    (hk : KeepsCells ops o (retained o cidx) cidx) {fn fv : String}
    (hr : splitByCollapsing ops o ids fn fv = (r, .ok ())) :
    r.WF ∧
    r.data = collapsedTable o.data (retained o cidx) cidx (nameCells ops o.fts cidx) ∧
    r.fts.getNames = keptNames o (retained o cidx) ++ [some fn, some fv] ∧
    r.pts.getNames = pointLabels o cidx.length := by
  rw [split_unfold h ops hv hd hk] at hr
  have hb := resolveIdents_bound h.fts hv
  have hcols : ∀ row ∈ collapsedTable o.data (retained o cidx) cidx (nameCells ops o.fts cidx),
      row.length = (retained o cidx).length + 2 := by
    intro row hrow
    obtain ⟨q, hq, hrow⟩ := List.mem_flatMap.1 hrow
    rw [List.mem_iff_getElem?] at hrow
    obtain ⟨i, hi⟩ := hrow
    rw [List.getElem?_zipWith_eq_some] at hi
    obtain ⟨c, v, -, -, rfl⟩ := hi
    rw [List.length_append, length_pick]
    · rfl
    · intro i hi
      rw [h.cols q hq]; exact (mem_rest.1 hi).1
  have hrows := length_collapsedTable h hb (length_nameCells ops o.fts cidx) (retained o cidx)
  dsimp only at hr
  split at hr
  · cases hr
  · rename_i fts hf
    obtain ⟨-, -, e3, e4⟩ := setNames_list_ok hf
    cases hT : o.pts.tbl with
    | none =>
      rw [hT] at hr
      simp only [Prod.mk.injEq, and_true] at hr
      subst hr
      refine ⟨⟨hrows, ?_, none_ok _, e4⟩, rfl, ?_, ?_⟩
      · intro row hrow
        rw [hcols row hrow]
        show _ = fts.len
        rw [e3]
      · show fts.getNames = _
        rw [e3]; rfl
      · rw [pointLabels_none h hT]; rfl
    | some t =>
      rw [hT] at hr
      dsimp only at hr
      split at hr
      · cases hr
      · rename_i pts hp
        simp only [Prod.mk.injEq, and_true] at hr
        subst hr
        obtain ⟨-, -, p3, p4⟩ := setNames_list_ok hp
        refine ⟨⟨?_, ?_, p4, e4⟩, rfl, ?_, ?_⟩
        · show _ = pts.len
          rw [p3]; exact hrows
        · intro row hrow
          rw [hcols row hrow]
          show _ = fts.len
          rw [e3]
        · show fts.getNames = _
          rw [e3]; rfl
        · show pts.getNames = _
          rw [p3, pointLabels_some hT]; rfl

/-! ### Which calls are accepted -/

private theorem append_sep_inj {a b x y : List Char} {c : Char} (hx : c ∉ x) (hy : c ∉ y)
    (h : a ++ c :: x = b ++ c :: y) : a = b ∧ x = y := by
  induction a generalizing b with
  | nil =>
    cases b with
    | nil => simp at h; exact ⟨rfl, h⟩
    | cons d b =>
      simp only [List.nil_append, List.cons_append, List.cons.injEq] at h
      exact absurd (by rw [h.2]; simp) hx
  | cons d a ih =>
    cases b with
    | nil =>
      simp only [List.nil_append, List.cons_append, List.cons.injEq] at h
      exact absurd (by rw [← h.2]; simp) hy
    | cons e b =>
      simp only [List.cons_append, List.cons.injEq] at h
      obtain ⟨e1, e2⟩ := ih h.2
      exact ⟨by rw [h.1, e1], e2⟩

private theorem label_inj {s s' : String} {i j : Nat}
    (h : s ++ "_" ++ toString i = s' ++ "_" ++ toString j) : s = s' ∧ i = j := by
  have hd : ∀ n : Nat, '_' ∉ (toString n).toList := by
    intro n hm
    exact absurd (toString_nat_chars hm) (by decide)
  have h2 : s.toList ++ '_' :: (toString i).toList = s'.toList ++ '_' :: (toString j).toList := by
    have := congrArg String.toList h
    simp only [String.toList_append] at this
    have e : "_".toList = ['_'] := rfl
    rw [e] at this
    simpa using this
  obtain ⟨e1, e2⟩ := append_sep_inj (hd i) (hd j) h2
  exact ⟨String.toList_inj.1 e1, toString_nat_inj (String.toList_inj.1 e2)⟩

theorem nodup_splitNames {k : Nat} {names : List (Option String)} (hk : 0 < k) :
    (splitNames k names).reduceOption.Nodup ↔ (names.map (fun nm => nm.getD "None")).Nodup := by
  have e : (splitNames k names).reduceOption
      = names.flatMap (fun nm => (List.range k).map (fun (i : Nat) => nm.getD "None" ++ "_" ++ toString i)) := by
    have : splitNames k names = (names.flatMap (fun nm => (List.range k).map
        (fun (i : Nat) => nm.getD "None" ++ "_" ++ toString i))).map some := by
      unfold splitNames
      rw [List.map_flatMap]
      simp [Function.comp_def]
    rw [this, reduceOption_map_some]
  rw [e]
  constructor
  · intro h
    rw [List.nodup_flatMap] at h
    rw [List.Nodup, List.pairwise_map]
    refine h.2.imp ?_
    intro a b hab he
    rw [Function.onFun, List.disjoint_left] at hab
    exact hab (List.mem_map.2 ⟨0, List.mem_range.2 hk, rfl⟩)
      (List.mem_map.2 ⟨0, List.mem_range.2 hk, by rw [he]⟩)
  · intro h
    rw [List.nodup_flatMap]
    constructor
    · intro nm _
      refine List.Nodup.map ?_ List.nodup_range
      intro i j hij
      exact (label_inj hij).2
    · rw [List.Nodup, List.pairwise_map] at h
      refine h.imp ?_
      intro a b hab
      rw [Function.onFun, List.disjoint_left]
      intro x hx hy
      obtain ⟨i, -, rfl⟩ := List.mem_map.1 hx
      obtain ⟨j, -, hj⟩ := List.mem_map.1 hy
      exact hab (label_inj hj).1.symm

/-- A call succeeds exactly when the two given names are distinct from each other and from the names
of the retained features and (with named points) at most one point is without a name, and then none
is called `None`. -/
theorem C36_split_accepted_iff {o : Obj V} (h : o.WF) (ops : CollapseOps V) {ids : List Ident}
    {cidx : List Nat} (hv : resolveIdents o.fts ids = .ok cidx) (hd : cidx.Nodup) (hne : ids ≠ [])
    (hk : KeepsCells ops o (retained o cidx) cidx) (fn fv : String) :
    (∃ r, splitByCollapsing ops o ids fn fv = (r, .ok ())) ↔
      fn ≠ fv ∧ some fn ∉ keptNames o (retained o cidx) ∧ some fv ∉ keptNames o (retained o cidx) ∧
      (o.pts.tbl.isSome → (o.pts.getNames.map (fun nm => nm.getD "None")).Nodup) := by
  rw [split_unfold h ops hv hd hk]
  have hlen := resolved_length h.fts hv
  have hpos : 0 < cidx.length := by rw [hlen]; exact List.length_pos_iff.2 hne
  have hkept : (keptNames o (retained o cidx)).reduceOption.Nodup := by
    have := reduceOption_pick_nodup (getNames_nodup h.fts) (nodup_rest o.fts.len cidx)
    have e : keptNames o (retained o cidx) = pick o.fts.getNames (retained o cidx) := by
      unfold keptNames pick
      rw [← List.filterMap_eq_map]
      apply List.filterMap_congr
      intro i hi
      have hi' : i < o.fts.getNames.length := by
        rw [h.fts.length_getNames]; exact (mem_rest.1 hi).1
      simp [List.getElem?_eq_getElem hi']
    rw [e]; exact this
  have hnames : ((keptNames o (retained o cidx) ++ [some fn, some fv]).length
        = (retained o cidx).length + 2 ∧
      (keptNames o (retained o cidx) ++ [some fn, some fv]).reduceOption.Nodup) ↔
      (fn ≠ fv ∧ some fn ∉ keptNames o (retained o cidx) ∧
        some fv ∉ keptNames o (retained o cidx)) := by
    have e : (keptNames o (retained o cidx) ++ [some fn, some fv]).reduceOption
        = (keptNames o (retained o cidx)).reduceOption ++ [fn, fv] := by
      rw [List.reduceOption_append]; rfl
    rw [e, List.nodup_append]
    simp only [true_and, List.length_append, keptNames, List.length_map, List.nodup_cons,
      List.mem_singleton, List.not_mem_nil, not_false_eq_true, List.nodup_nil, and_true,
      List.length_cons, List.length_nil]
    constructor
    · rintro ⟨-, a, b⟩
      refine ⟨a, fun hm => ?_, fun hm => ?_⟩
      · exact b fn (List.reduceOption_mem_iff.2 hm) fn (by simp) rfl
      · exact b fv (List.reduceOption_mem_iff.2 hm) fv (by simp) rfl
    · rintro ⟨a, b, c⟩
      refine ⟨hkept, a, fun x hx y hy hxy => ?_⟩
      subst hxy
      rw [List.reduceOption_mem_iff] at hx
      simp only [List.mem_cons, List.not_mem_nil, or_false] at hy
      rcases hy with rfl | rfl
      · exact b hx
      · exact c hx
  dsimp only
  rw [setNames_list_eq]
  by_cases hc : fn ≠ fv ∧ some fn ∉ keptNames o (retained o cidx) ∧
        some fv ∉ keptNames o (retained o cidx)
  · rw [if_pos (hnames.2 hc)]
    dsimp only
    cases hT : o.pts.tbl with
    | none => exact ⟨fun _ => ⟨hc.1, hc.2.1, hc.2.2, by simp⟩, fun _ => ⟨_, rfl⟩⟩
    | some t =>
      dsimp only
      rw [setNames_list_eq]
      have hl : (splitNames cidx.length t.inv).length = o.pts.len * cidx.length := by
        rw [length_splitNames, ← AxisSt.getNames_of_some hT, h.pts.length_getNames]
      rw [AxisSt.getNames_of_some hT]
      have hns := nodup_splitNames (names := t.inv) hpos
      by_cases hp : (t.inv.map (fun nm => nm.getD "None")).Nodup
      · rw [if_pos ⟨hl, hns.2 hp⟩]
        exact ⟨fun _ => ⟨hc.1, hc.2.1, hc.2.2, fun _ => hp⟩, fun _ => ⟨_, rfl⟩⟩
      · rw [if_neg (fun hh => hp (hns.1 hh.2))]
        constructor
        · rintro ⟨r, hr⟩; cases hr
        · rintro ⟨-, -, -, hq⟩; exact absurd (hq rfl) hp
  · rw [if_neg (fun hh => hc (hnames.1 hh))]
    constructor
    · rintro ⟨r, hr⟩; cases hr
    · rintro ⟨a, b, c, -⟩; exact absurd ⟨a, b, c⟩ hc

/-! ## The way back -/

section Blocks
variable {A : Type} [DecidableEq V]

private theorem firstOcc_of_nodup {K : Type} [DecidableEq K] {l : List K} (h : l.Nodup) :
    firstOcc l = l := by
  induction l with
  | nil => rfl
  | cons x xs ih =>
    rw [List.nodup_cons] at h
    unfold firstOcc
    rw [ih h.2, List.filter_eq_self.2]
    intro y hy
    simp only [ne_eq, decide_not, Bool.not_eq_eq_eq_not, Bool.not_true, decide_eq_false_iff_not]
    rintro rfl
    exact h.1 hy

private theorem firstOcc_append {K : Type} [DecidableEq K] (a b : List K) :
    firstOcc (a ++ b) = firstOcc a ++ (firstOcc b).filter (fun y => decide (y ∉ a)) := by
  induction a with
  | nil =>
    simp [firstOcc]
  | cons x xs ih =>
    show x :: (firstOcc (xs ++ b)).filter _ = (x :: (firstOcc xs).filter _) ++ _
    rw [ih, List.filter_append, List.filter_filter, List.cons_append]
    congr 2
    apply List.filter_congr
    intro y _
    simp

private theorem firstOcc_const {K : Type} [DecidableEq K] {l : List K} {x : K} (h : ∀ y ∈ l, y = x)
    (hne : l ≠ []) : firstOcc l = [x] := by
  cases l with
  | nil => exact absurd rfl hne
  | cons y ys =>
    have hy := h y (by simp)
    subst hy
    unfold firstOcc
    congr 1
    rw [List.filter_eq_nil_iff]
    intro z hz
    have := h z (List.mem_cons_of_mem _ (mem_firstOcc.1 hz))
    simp [this]

private theorem firstOcc_keys (L : List A) (B : A → List (Part V)) (κ : A → List V)
    (hB : ∀ a ∈ L, ∀ t ∈ B a, t.key = κ a) (hne : ∀ a ∈ L, B a ≠ []) (hn : (L.map κ).Nodup) :
    firstOcc ((L.flatMap B).map Part.key) = L.map κ := by
  induction L with
  | nil => rfl
  | cons a L ih =>
    rw [List.map_cons, List.nodup_cons] at hn
    rw [List.flatMap_cons, List.map_append, firstOcc_append,
      ih (fun a h => hB a (List.mem_cons_of_mem _ h)) (fun a h => hne a (List.mem_cons_of_mem _ h)) hn.2]
    have hc : ∀ y ∈ (B a).map Part.key, y = κ a := by
      intro y hy
      obtain ⟨t, ht, rfl⟩ := List.mem_map.1 hy
      exact hB a (by simp) t ht
    rw [firstOcc_const hc (by simpa using hne a (by simp)), List.filter_eq_self.2]
    · rfl
    · intro y hy
      simp only [decide_eq_true_eq]
      intro hm
      rw [hc y hm] at hy
      exact hn.1 hy

private theorem firstOcc_names {K : Type} [DecidableEq K] {names : List K} (hn : names.Nodup) (L : List A) (hL : L ≠ []) :
    firstOcc (L.flatMap (fun _ => names)) = names := by
  cases L with
  | nil => exact absurd rfl hL
  | cons a L =>
    rw [List.flatMap_cons, firstOcc_append, firstOcc_of_nodup hn, List.filter_eq_nil_iff.2]
    · simp
    · intro y hy
      have := mem_firstOcc.1 hy
      obtain ⟨_, _, h⟩ := List.mem_flatMap.1 this
      simp [h]

private theorem find_block (L : List A) (B : A → List (Part V)) (κ : A → List V)
    (hB : ∀ a ∈ L, ∀ t ∈ B a, t.key = κ a) (hn : (L.map κ).Nodup) {a : A} (ha : a ∈ L)
    (p : Part V → Bool) (hp : ∀ t, p t = true → t.key = κ a) :
    (L.flatMap B).find? p = (B a).find? p := by
  induction L with
  | nil => cases ha
  | cons b L ih =>
    rw [List.map_cons, List.nodup_cons] at hn
    rw [List.flatMap_cons, List.find?_append]
    by_cases hab : a ∈ L
    · have hnone : (B b).find? p = none := by
        rw [List.find?_eq_none]
        intro t ht hpt
        have e1 := hB b (by simp) t ht
        have e2 := hp t hpt
        exact hn.1 (List.mem_map.2 ⟨a, hab, by rw [← e2, e1]⟩)
      rw [hnone, ih (fun a h => hB a (List.mem_cons_of_mem _ h)) hn.2 hab]
      rfl
    · have hab' : a = b := by
        rcases List.mem_cons.1 ha with h | h
        · exact h
        · exact absurd h hab
      subst hab'
      have hnone : (L.flatMap B).find? p = none := by
        rw [List.find?_eq_none]
        intro t ht hpt
        obtain ⟨b, hb, ht⟩ := List.mem_flatMap.1 ht
        have e1 := hB b (List.mem_cons_of_mem _ hb) t ht
        have e2 := hp t hpt
        exact hn.1 (List.mem_map.2 ⟨b, hb, by rw [← e1, e2]⟩)
      rw [hnone]
      simp

private theorem values_block (nan : V) (e : Nat) (B : List (Part V)) (κ : List V)
    (hB : ∀ t ∈ B, t.key = κ) (hn : (B.map Part.nm).Nodup) :
    (B.map Part.nm).flatMap (valuesFor nan e B κ) = B.flatMap Part.vals := by
  rw [List.flatMap_map]
  apply List.flatMap_congr
  intro t ht
  unfold valuesFor
  have hs : (B.find? (fun u => decide (u.key = κ ∧ u.nm = t.nm))).isSome := by
    rw [List.find?_isSome]
    exact ⟨t, ht, by simp [hB t ht]⟩
  obtain ⟨u, hu⟩ := Option.isSome_iff_exists.1 hs
  rw [hu]
  have h1 := List.mem_of_find?_eq_some hu
  have h2 := List.find?_some hu
  simp only [decide_eq_true_eq] at h2
  have : u = t := List.inj_on_of_nodup_map hn h1 ht h2.2
  rw [this]

/-- A table of blocks, one for each combination of retained values, all with the same names: the
expanded table has for each block the values of its points side by side. -/
private theorem expanded_blocks (nan : V) (m e : Nat) (L : List A) (B : A → List (Part V))
    (κ : A → List V) (names : List V) (hκ : ∀ a ∈ L, (κ a).length = m)
    (hB : ∀ a ∈ L, ∀ t ∈ B a, t.key = κ a) (hn : (L.map κ).Nodup)
    (hnm : ∀ a ∈ L, (B a).map Part.nm = names) (hnn : names.Nodup) (hne : names ≠ []) (hL : L ≠ []) :
    expandedTable nan m e (L.flatMap B) = L.map (fun a => κ a ++ (B a).flatMap Part.vals) ∧
    firstNames (L.flatMap B) = L.map (fun a => (((B a).head?).map Part.pname).join) ∧
    firstOcc ((L.flatMap B).map Part.nm) = names ∧
    ((L.flatMap B).map (fun t => (t.key, t.nm))).Nodup := by
  have hBne : ∀ a ∈ L, B a ≠ [] := by
    intro a ha hc
    have := hnm a ha
    rw [hc] at this
    exact hne this.symm
  have hk := firstOcc_keys L B κ hB hBne hn
  have hno : firstOcc ((L.flatMap B).map Part.nm) = names := by
    rw [List.map_flatMap, List.flatMap_congr hnm, firstOcc_names hnn L hL]
  refine ⟨?_, ?_, hno, ?_⟩
  · unfold expandedTable
    rw [hk, hno, List.map_map]
    apply List.map_congr_left
    intro a ha
    have hv : ∀ nm, valuesFor nan e (L.flatMap B) (κ a) nm = valuesFor nan e (B a) (κ a) nm := by
      intro nm
      unfold valuesFor
      rw [find_block L B κ hB hn ha _ (by
        intro t ht
        simp only [decide_eq_true_eq] at ht
        exact ht.1)]
    have hvb := values_block nan e (B a) (κ a) (hB a ha) (by rw [hnm a ha]; exact hnn)
    rw [hnm a ha] at hvb
    simp only [Function.comp]
    rw [List.take_of_length_le (by rw [hκ a ha]), List.drop_of_length_le (by rw [hκ a ha]),
      List.append_nil, ← hvb]
    congr 1
    exact List.flatMap_congr (fun nm _ => hv nm)
  · unfold firstNames
    rw [hk, List.map_map]
    apply List.map_congr_left
    intro a ha
    simp only [Function.comp]
    rw [find_block L B κ hB hn ha _ (by
      intro t ht
      simp only [decide_eq_true_eq] at ht
      exact ht)]
    congr 2
    have := hBne a ha
    revert this
    have hBa := hB a ha
    cases hb : B a with
    | nil => intro h; exact absurd rfl h
    | cons t ts =>
      intro _
      rw [List.find?_cons_of_pos]
      · rfl
      · rw [hb] at hBa
        simp [hBa t (by simp)]
  · rw [List.map_flatMap, List.nodup_flatMap]
    constructor
    · intro a ha
      have h1 : ((B a).map Part.nm).Nodup := by rw [hnm a ha]; exact hnn
      have h2 : (B a).map Part.nm = ((B a).map (fun t => (t.key, t.nm))).map Prod.snd := by
        rw [List.map_map]; rfl
      rw [h2] at h1
      exact h1.of_map _
    · rw [List.Nodup, List.pairwise_map] at hn
      have hn' := List.Pairwise.and_mem.1 hn
      refine hn'.imp ?_
      rintro a b ⟨ha, hb, hab⟩
      rw [Function.onFun, List.disjoint_left]
      intro x hx hy
      obtain ⟨t, ht, rfl⟩ := List.mem_map.1 hx
      obtain ⟨u, hu, he⟩ := List.mem_map.1 hy
      simp only [Prod.mk.injEq] at he
      exact hab (by rw [← hB a ha t ht, ← hB b hb u hu, he.1])

end Blocks

private theorem zip_flatMap {A B C D : Type} (l1 : List A) (l2 : List B) (f : A → List C)
    (g : B → List D) (hl : l1.length = l2.length) (k : Nat) (hf : ∀ x, (f x).length = k)
    (hg : ∀ y ∈ l2, (g y).length = k) :
    (l1.flatMap f).zip (l2.flatMap g) = (l1.zip l2).flatMap (fun p => (f p.1).zip (g p.2)) := by
  induction l1 generalizing l2 with
  | nil => simp
  | cons x xs ih =>
    cases l2 with
    | nil => simp at hl
    | cons y ys =>
      rw [List.flatMap_cons, List.flatMap_cons, List.zip_append (by rw [hf, hg y (by simp)]),
        ih ys (by simpa using hl) (fun y h => hg y (List.mem_cons_of_mem _ h))]
      rfl

private theorem pick_prefix (a b : List V) : pick (a ++ b) (List.range a.length) = a := by
  have : pick (a ++ b) (List.range a.length) = pick a (List.range a.length) := by
    unfold pick
    apply List.filterMap_congr
    intro i hi
    rw [List.getElem?_append_left (List.mem_range.1 hi)]
  rw [this, pick_range]

private theorem pick_last (a : List V) (c v : V) : pick (a ++ [c, v]) [a.length + 1] = [v] := by
  simp [pick, List.getElem?_append_right]

private theorem uncombined_two (r : Obj V) {m : Nat} (h : r.fts.len = m + 2) :
    uncombined r m [m + 1] = List.range m := by
  unfold uncombined
  rw [h, List.range_succ, List.range_succ, List.filter_append, List.filter_append,
    List.filter_eq_self.2]
  · simp
  · intro i hi
    have := List.mem_range.1 hi
    simp; omega

/-- The features of a well-formed object taken by position. -/
private theorem keptNames_append (o : Obj V) (a b : List Nat) :
    keptNames o (a ++ b) = keptNames o a ++ keptNames o b := by
  unfold keptNames; rw [List.map_append]

private theorem keptNames_eq_pick {o : Obj V} (h : o.WF) {l : List Nat} (hl : ∀ i ∈ l, i < o.fts.len) :
    keptNames o l = pick o.fts.getNames l := by
  unfold keptNames pick
  rw [← List.filterMap_eq_map]
  apply List.filterMap_congr
  intro i hi
  have hi' : i < o.fts.getNames.length := by
    rw [h.fts.length_getNames]; exact hl i hi
  simp [List.getElem?_eq_getElem hi']

private theorem nameCells_named (ops : CollapseOps V) {o : Obj V} {cidx : List Nat} {names : List String}
    (hne : cidx ≠ []) (hn : keptNames o cidx = names.map some) :
    nameCells ops o.fts cidx = names.map ops.ofName := by
  have hall : ¬ cidx.all (fun i => ((o.fts.getNames[i]?).join).isNone) = true := by
    rw [List.all_eq_true]
    intro h
    obtain ⟨i, hi⟩ := List.exists_mem_of_ne_nil _ hne
    have h1 := h i hi
    have h2 : (o.fts.getNames[i]?).join ∈ names.map some := by
      rw [← hn]; exact List.mem_map.2 ⟨i, hi, rfl⟩
    obtain ⟨s, -, hs⟩ := List.mem_map.1 h2
    rw [← hs] at h1
    cases h1
  unfold nameCells
  rw [if_neg hall]
  clear hall hne
  unfold keptNames at hn
  induction cidx generalizing names with
  | nil =>
    cases names with
    | nil => rfl
    | cons a b => cases hn
  | cons i is ih =>
    cases names with
    | nil => cases hn
    | cons a b =>
      simp only [List.map_cons, List.cons.injEq] at hn
      simp only [List.map_cons, List.cons.injEq]
      refine ⟨?_, ih hn.2⟩
      rw [hn.1]

/-- Collapsing named features and expanding them again succeeds and gives, when the retained values
identify the points, the original points in their order with the original values and feature names
(the collapsed features after the retained ones); a named point's name has `_0` appended. -/
theorem C36_round_trip [DecidableEq V] {o r : Obj V} (h : o.WF) (ops : CollapseOps V)
    (hstr : ∀ s, ops.str (ops.ofName s) = s) {ids : List Ident} {cidx : List Nat}
    (hv : resolveIdents o.fts ids = .ok cidx) (hd : cidx.Nodup) (hne : ids ≠ [])
    (hk : KeepsCells ops o (retained o cidx) cidx) {names : List String}
    (hnames : keptNames o cidx = names.map some)
    (hpts : 0 < o.pts.len) (hid : (o.data.map (fun row => pick row (retained o cidx))).Nodup)
    {fn fv : String} (hr : splitByCollapsing ops o ids fn fv = (r, .ok ())) :
    ∃ b, combineByExpanding ops r (.str fn) [.str fv] = (b, .ok ()) ∧
      b.data = o.data.map (fun row => pick row (retained o cidx ++ cidx)) ∧
      b.fts.getNames = pick o.fts.getNames (retained o cidx ++ cidx) ∧
      b.pts.getNames = o.pts.getNames.map (fun nm => pointLabel o nm 0) := by
  obtain ⟨w, d1, d2, d3⟩ := C36_split h ops hv hd hk hr
  have hb := resolveIdents_bound h.fts hv
  have hlen := resolved_length h.fts hv
  have hcne : cidx ≠ [] := by
    intro hc; rw [hc] at hlen; exact hne (List.length_eq_zero_iff.1 hlen.symm)
  have hkp : 0 < cidx.length := List.length_pos_iff.2 hcne
  have hcells := nameCells_named ops hcne hnames
  have hnl : names.length = cidx.length := by
    have := congrArg List.length hnames
    simpa [keptNames] using this.symm
  let m := (retained o cidx).length
  have hm : r.fts.len = m + 2 := by
    rw [← w.fts.length_getNames, d2]; simp [keptNames, m]
  -- positions of the two features
  have hni : r.fts.getIndex (.str fn) = .ok (m : Int) := by
    rw [← w.fts.getName_iff, d2, List.getElem?_append_right (by simp [keptNames, m])]
    simp [keptNames, m]
  have hvi : r.fts.getIndex (.str fv) = .ok ((m + 1 : Nat) : Int) := by
    rw [← w.fts.getName_iff, d2, List.getElem?_append_right (by simp [keptNames, m])]
    simp [keptNames, m]
  have hres : resolveIdents r.fts [.str fv] = .ok [m + 1] := by
    rw [resolveIdents_ok_iff _ _ _ w.fts]
    simp only [List.map_cons, List.map_nil, hvi]
  have hun := uncombined_two r hm
  have hdd : (m :: [m + 1]).Nodup := by simp
  have hpos : m + 1 + [m + 1].length ≤ r.fts.len := by rw [hm]; simp
  have hvn : ValueNames [.str fv] [fv] := ⟨rfl, fun _ => rfl⟩
  -- the points in blocks
  let κ : Option String × List V → List V := fun p => pick p.2 (retained o cidx)
  let mk : Option String × List V → Part V := fun p =>
    ⟨p.1, pick p.2 (List.range m), (p.2[m]?).getD ops.undef, pick p.2 [m + 1]⟩
  let B : Option String × List V → List (Part V) := fun p =>
    (((List.range cidx.length).map (pointLabel o p.1)).zip
      (List.zipWith (fun c v => pick p.2 (retained o cidx) ++ [c, v]) (names.map ops.ofName)
        (pick p.2 cidx))).map mk
  let L := o.pts.getNames.zip o.data
  have hsnd : L.map Prod.snd = o.data := by
    rw [List.map_snd_zip]
    rw [h.pts.length_getNames, h.rows]
  have hfst : L.map Prod.fst = o.pts.getNames := by
    rw [List.map_fst_zip]
    rw [h.pts.length_getNames, h.rows]
  have hrowlen : ∀ p ∈ L, p.2.length = o.fts.len := fun p hp => h.cols _ (List.of_mem_zip hp).2
  have hpl : ∀ p ∈ L, (pick p.2 cidx).length = cidx.length := by
    intro p hp
    rw [length_pick]
    intro i hi; rw [hrowlen p hp]; exact hb i hi
  have hκl : ∀ p ∈ L, (κ p).length = m := by
    intro p hp
    show (pick _ _).length = _
    rw [length_pick]
    intro i hi; rw [hrowlen p hp]; exact (mem_rest.1 hi).1
  have hT : parts r (uncombined r m [m + 1]) m [m + 1] ops.undef = L.flatMap B := by
    unfold parts
    rw [hun, d1, d3, hcells]
    unfold pointLabels collapsedTable
    rw [zip_flatMap _ _ _ _ (by rw [h.pts.length_getNames, h.rows]) cidx.length (by simp) (by
      intro row hrow
      rw [List.length_zipWith, length_pick (by
        intro i hi; rw [h.cols row hrow]; exact hb i hi)]
      simp [hnl]), List.map_flatMap]
  -- what is in a block
  have hmem : ∀ p ∈ L, ∀ t ∈ B p, t.key = κ p := by
    intro p hp t ht
    obtain ⟨⟨n, row⟩, hq, rfl⟩ := List.mem_map.1 ht
    have hq2 := (List.of_mem_zip hq).2
    rw [List.mem_iff_getElem?] at hq2
    obtain ⟨i, hi⟩ := hq2
    rw [List.getElem?_zipWith_eq_some] at hi
    obtain ⟨c, v, -, -, rfl⟩ := hi
    show pick _ (List.range m) = _
    rw [← hκl p hp]
    exact pick_prefix _ _
  have hproj : ∀ p ∈ L, (B p).map (fun t => (t.nm, t.vals))
      = List.zipWith (fun c v => (c, [v])) (names.map ops.ofName) (pick p.2 cidx) := by
    intro p hp
    show List.map _ (List.map mk _) = _
    rw [List.map_map]
    have hcomp : ((fun t : Part V => (t.nm, t.vals)) ∘ mk)
        = (fun row : List V => ((row[m]?).getD ops.undef, pick row [m + 1])) ∘ Prod.snd := rfl
    rw [hcomp, ← List.map_map, List.map_snd_zip (by
      simp only [List.length_zipWith, List.length_map, List.length_range]; omega),
      List.map_zipWith]
    congr 1
    funext c v
    have e1 : m = (pick p.2 (retained o cidx)).length := (hκl p hp).symm
    rw [e1, pick_last]
    simp
  have hnm : ∀ p ∈ L, (B p).map Part.nm = names.map ops.ofName := by
    intro p hp
    have := congrArg (List.map Prod.fst) (hproj p hp)
    rw [List.map_map, List.map_zipWith] at this
    have e : (Prod.fst ∘ fun t : Part V => (t.nm, t.vals)) = Part.nm := rfl
    rw [e] at this
    rw [this]
    apply List.ext_getElem?
    intro i
    rw [List.getElem?_zipWith]
    have hl1 := hpl p hp
    by_cases hi : i < cidx.length
    · rw [List.getElem?_eq_getElem (l := pick p.2 cidx) (by omega)]
      cases (names.map ops.ofName)[i]? <;> rfl
    · rw [List.getElem?_eq_none (l := names.map ops.ofName) (by simp; omega)]
  have hvals : ∀ p ∈ L, (B p).flatMap Part.vals = pick p.2 cidx := by
    intro p hp
    have := congrArg (List.map Prod.snd) (hproj p hp)
    rw [List.map_map, List.map_zipWith] at this
    have e : (Prod.snd ∘ fun t : Part V => (t.nm, t.vals)) = Part.vals := rfl
    rw [e] at this
    rw [List.flatMap_def, this]
    have hl1 : (names.map ops.ofName).length = (pick p.2 cidx).length := by
      rw [hpl p hp, List.length_map, hnl]
    revert hl1
    generalize names.map ops.ofName = a
    generalize pick p.2 cidx = b
    intro hl1
    induction a generalizing b with
    | nil =>
      cases b with
      | nil => rfl
      | cons x y => cases hl1
    | cons c cs ih =>
      cases b with
      | nil => cases hl1
      | cons v vs =>
        simp only [List.zipWith_cons_cons, List.flatten_cons]
        rw [ih vs (by simpa using hl1)]
        rfl
  have hhead : ∀ p ∈ L, (((B p).head?).map Part.pname).join = pointLabel o p.1 0 := by
    intro p hp
    have h1 : (B p).map Part.pname = (List.range cidx.length).map (pointLabel o p.1) := by
      show List.map _ (List.map mk _) = _
      rw [List.map_map]
      have hcomp : (Part.pname ∘ mk) = Prod.fst := rfl
      rw [hcomp, List.map_fst_zip]
      rw [List.length_zipWith, hpl p hp]
      simp [hnl]
    rw [← List.head?_map, h1, List.head?_map, List.head?_range, if_neg (by omega)]
    rfl
  have hLne : L ≠ [] := by
    intro hc
    have : L.length = o.pts.len := by
      rw [← List.length_map (f := Prod.fst), hfst, h.pts.length_getNames]
    rw [hc] at this
    simp at this; omega
  have hof : Function.Injective ops.ofName := by
    intro a b hab
    rw [← hstr a, ← hstr b, hab]
  have hallb : ∀ i ∈ retained o cidx ++ cidx, i < o.fts.len := by
    intro i hi
    rcases List.mem_append.1 hi with hi | hi
    · exact (mem_rest.1 hi).1
    · exact hb i hi
  have halln : (retained o cidx ++ cidx).Nodup :=
    List.nodup_append.2 ⟨nodup_rest _ _, hd, by
      rintro a ha b hb' rfl
      exact (mem_rest.1 ha).2 hb'⟩
  have hlabn : (keptNames o (retained o cidx ++ cidx)).reduceOption.Nodup := by
    rw [keptNames_eq_pick h hallb]
    exact reduceOption_pick_nodup (getNames_nodup h.fts) halln
  have hnn : names.Nodup := by
    rw [keptNames_append, List.reduceOption_append, hnames, reduceOption_map_some] at hlabn
    exact (List.nodup_append.1 hlabn).2.1
  have hκn : (L.map κ).Nodup := by
    have : L.map κ = (L.map Prod.snd).map (fun row => pick row (retained o cidx)) := by
      rw [List.map_map]; rfl
    rw [this, hsnd]; exact hid
  obtain ⟨x1, x2, x3, x4⟩ := expanded_blocks ops.nan m 1 L B κ (names.map ops.ofName) hκl hmem hκn
    hnm (hnn.map hof) (by
      intro hc
      rw [List.map_eq_nil_iff] at hc
      rw [hc] at hnl; simp at hnl; omega) hLne
  have hlab : ∀ l : List String, l = names → allLabels r m [m + 1] (newLabels l [fv])
      = keptNames o (retained o cidx ++ cidx) := by
    rintro l rfl
    unfold allLabels newLabels
    rw [hun, if_pos (by simp)]
    have e : keptNames r (List.range m) = keptNames o (retained o cidx) := by
      rw [keptNames_eq_pick w (by intro i hi; have := List.mem_range.1 hi; omega), d2]
      have : m = (keptNames o (retained o cidx)).length := by simp [keptNames, m]
      rw [this, pick_prefix]
    have el : (keptNames o (retained o cidx)).length = m := by simp [keptNames, m]
    rw [e, List.take_of_length_le (by rw [el]), List.drop_of_length_le (by rw [el]), List.append_nil,
      keptNames_append, hnames]
  have hstrs : (names.map ops.ofName).map ops.str = names := by
    rw [List.map_map]
    conv_rhs => rw [← List.map_id names]
    apply List.map_congr_left
    intro s _
    exact hstr s
  obtain ⟨b, hbc⟩ := C36_combine_accepted w ops hni hres hdd hpos (by simp) hvn
    (by rw [hT]; exact x4) (by rw [hT, x3, hstrs]; exact hnn)
    (by rw [hT, x3, hlab _ hstrs]; exact hlabn)
  obtain ⟨-, y1, y2, y3, -, -⟩ := C36_combine w ops hni hres hdd hpos (by simp) hvn hbc
  refine ⟨b, hbc, ?_, ?_, ?_⟩
  · rw [y1, hT]
    show expandedTable ops.nan m 1 (L.flatMap B) = _
    rw [x1, ← hsnd, List.map_map]
    apply List.map_congr_left
    intro p hp
    rw [hvals p hp]
    exact (pick_append _ _ _).symm
  · rw [y3, hT, x3, hlab _ hstrs, keptNames_eq_pick h hallb]
  · rw [y2, hT, x2, ← hfst, List.map_map]
    exact List.map_congr_left hhead

/-! ## Concrete cases -/

/-- Cells of the examples. -/
inductive Cell where
  | num (i : Int)
  | txt (s : String)
  | none
  deriving DecidableEq, Repr

/-- The cell functions for `Matrix` and `DataFrame`. -/
def arrayOps : CollapseOps Cell where
  ofName := .txt
  ofIdx := fun i => .num i
  str := fun c => match c with
    | .num i => toString i
    | .txt s => s
    | .none => "None"
  typeName := fun c => match c with
    | .num _ => "int"
    | .txt _ => "str"
    | .none => "NoneType"
  nan := .none
  undef := .none
  npArr := id

/-- `np.array` on a nested list with a text among its cells makes all cells texts. -/
def textify (rows : List (List Cell)) : List (List Cell) :=
  if rows.any (fun r => r.any (fun c => match c with
    | .txt _ => true
    | _ => false)) then rows.map (fun r => r.map (fun c => .txt (arrayOps.str c)))
  else rows

/-- The cell functions for `List`. -/
def listOps : CollapseOps Cell := { arrayOps with npArr := textify }

/-- Two athletes, two distances. -/
def exObj : Obj Cell where
  data := [[.txt "w", .num 9, .num 20], [.txt "x", .num 10, .num 21]]
  pts := ⟨2, some ⟨[("p", 0), ("q", 1)], [some "p", some "q"]⟩⟩
  fts := ⟨3, some ⟨[("ath", 0), ("100", 1), ("200", 2)], [some "ath", some "100", some "200"]⟩⟩

/-- An accepted call that meets the hypotheses of the theorems, and the way back. -/
theorem C36_example :
    let s := exObj.splitByCollapsing arrayOps [.str "100", .str "200"] "dist" "time"
    s.2 = .ok () ∧
    s.1.data = [[.txt "w", .txt "100", .num 9], [.txt "w", .txt "200", .num 20],
      [.txt "x", .txt "100", .num 10], [.txt "x", .txt "200", .num 21]] ∧
    s.1.fts.getNames = [some "ath", some "dist", some "time"] ∧
    s.1.pts.getNames = [some "p_0", some "p_1", some "q_0", some "q_1"] ∧
    (s.1.combineByExpanding arrayOps (.str "dist") [.str "time"]).2 = .ok () ∧
    (s.1.combineByExpanding arrayOps (.str "dist") [.str "time"]).1.data = exObj.data ∧
    (s.1.combineByExpanding arrayOps (.str "dist") [.str "time"]).1.fts.getNames
      = exObj.fts.getNames ∧
    (s.1.combineByExpanding arrayOps (.str "dist") [.str "time"]).1.pts.getNames
      = [some "p_0", some "q_0"] := by
  with_unfolding_all decide

/-- The example meets the hypotheses of `C36_round_trip`. -/
theorem C36_example_hypotheses : exObj.WF ∧ (∀ s, arrayOps.str (arrayOps.ofName s) = s) ∧
    resolveIdents exObj.fts [.str "100", .str "200"] = .ok [1, 2] ∧
    KeepsCells arrayOps exObj (retained exObj [1, 2]) [1, 2] ∧
    keptNames exObj [1, 2] = ["100", "200"].map some ∧
    (exObj.data.map (fun row => pick row (retained exObj [1, 2]))).Nodup := by
  refine ⟨⟨rfl, by decide, ?_, ?_⟩, fun _ => rfl, by with_unfolding_all rfl, ⟨rfl, rfl⟩, by decide, by decide⟩
  · exact mk_ok (l := [some "p", some "q"]) rfl (by decide)
  · exact mk_ok (l := [some "ath", some "100", some "200"]) rfl (by decide)

/-- The same table with the time before the distance: the value feature precedes the feature with
the names. -/
def exBefore : Obj Cell where
  data := [[.num 9, .txt "w", .txt "100"], [.num 20, .txt "w", .txt "200"]]
  pts := ⟨2, none⟩
  fts := ⟨3, some ⟨[("time", 0), ("ath", 1), ("dist", 2)], [some "time", some "ath", some "dist"]⟩⟩

/-- When a feature with values precedes the feature with the names, values are lost silently: here the
second time is in no cell of the result, and the athlete stands in two features. -/
theorem C36_values_before_names_violated :
    (exBefore.combineByExpanding arrayOps (.str "dist") [.str "time"]).2 = .ok () ∧
    (exBefore.combineByExpanding arrayOps (.str "dist") [.str "time"]).1.data
      = [[.txt "w", .txt "w", .num 9]] ∧
    (exBefore.combineByExpanding arrayOps (.str "dist") [.str "time"]).1.fts.getNames
      = [some "ath", some "100", some "200"] := by
  with_unfolding_all decide

/-- A number and a text to be collapsed. -/
def exMixed : Obj Cell where
  data := [[.txt "w", .num 9, .txt "slow"]]
  pts := ⟨1, none⟩
  fts := ⟨3, some ⟨[("ath", 0), ("t", 1), ("c", 2)], [some "ath", some "t", some "c"]⟩⟩

/-- A `List` whose collapsed features mix numbers and texts has its numbers turned into texts. -/
theorem C36_list_mixed_violated :
    (exMixed.splitByCollapsing listOps [.str "t", .str "c"] "k" "v").2 = .ok () ∧
    (exMixed.splitByCollapsing listOps [.str "t", .str "c"] "k" "v").1.data
      = [[.txt "w", .txt "t", .txt "9"], [.txt "w", .txt "c", .txt "slow"]] ∧
    (exMixed.splitByCollapsing arrayOps [.str "t", .str "c"] "k" "v").1.data
      = [[.txt "w", .txt "t", .num 9], [.txt "w", .txt "c", .txt "slow"]] := by
  with_unfolding_all decide

/-- A refused call need not leave the object as it was: with a name that a retained feature already
has, the error comes after the table and the sizes have been replaced; the object left behind has four
points and two point names. -/
theorem C36_refused_changed_violated :
    let s := exObj.splitByCollapsing arrayOps [.str "100", .str "200"] "ath" "time"
    s.2.toBool = false ∧ s.1.data ≠ exObj.data ∧ s.1.pts.len = 4 ∧ s.1.pts.getNames.length = 2 := by
  with_unfolding_all decide

end Collapse
end Nimble
