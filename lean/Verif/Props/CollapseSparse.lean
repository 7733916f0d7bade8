import Verif.Lemmas.CollapseSparse
import Verif.Props.MergeSparse

/-!
# C96: collapsing and expanding features of Sparse objects
-/

namespace Nimble.Sp
variable {V : Type} [Zero V] [DecidableEq V]

/-! ## What is written by `splitByCollapsingFeatures` -/

/-- The collapsed features from left to right. -/
def leftToRight (cols : Nat) (cidx : List Nat) : List Nat := (List.range cols).filter (fun j => decide (j ∈ cidx))

/-- The features whose values end up next to the names of the features `cidx`. -/
def writtenFts (cols : Nat) (cidx : List Nat) : List Nat := pick (leftToRight cols cidx) (argsort cidx)

theorem leftToRight_perm {cols : Nat} {cidx : List Nat} (hd : cidx.Nodup) (hb : ∀ j ∈ cidx, j < cols) :
    (leftToRight cols cidx).Perm cidx := by
  refine (List.perm_ext_iff_of_nodup (List.nodup_range.filter _) hd).2 ?_
  intro j
  simp only [leftToRight, List.mem_filter, List.mem_range, decide_eq_true_eq]
  exact ⟨fun h => h.2, fun h => ⟨hb j h, h⟩⟩

theorem leftToRight_increasing {cols : Nat} {cidx : List Nat} (h : cidx.Pairwise (· < ·)) (hb : ∀ j ∈ cidx, j < cols) :
    leftToRight cols cidx = cidx := by
  refine List.Perm.eq_of_pairwise (le := (· < ·)) (fun a b _ _ h1 h2 => by omega) (List.pairwise_lt_range.filter _) h
    (leftToRight_perm (h.imp (fun h => by omega)) hb)

theorem writtenFts_increasing {cols : Nat} {cidx : List Nat} (h : cidx.Pairwise (· < ·)) (hb : ∀ j ∈ cidx, j < cols) :
    writtenFts cols cidx = cidx := by
  unfold writtenFts
  rw [leftToRight_increasing h hb, argsort_increasing h, pick_range]

/-- A retained selection in which a point has no zeros. -/
theorem nonzeroIn_all {c : Coo V} {pt : Nat} {idxs : List Nat} (h : ∀ j ∈ idxs, j < c.cols → c.at pt j ≠ 0) :
    nonzeroIn c pt idxs = leftToRight c.cols idxs := by
  unfold nonzeroIn leftToRight
  refine List.filter_congr ?_
  intro j hj
  rw [List.mem_range] at hj
  by_cases hm : j ∈ idxs
  · simp [hm, h j hm hj]
  · simp [hm]

theorem nonzeroIn_congr {c d : Coo V} (hc : c.cols = d.cols) (h : ∀ i j, c.at i j = d.at i j) (pt : Nat) (idxs : List Nat) :
    nonzeroIn c pt idxs = nonzeroIn d pt idxs := by
  unfold nonzeroIn
  rw [hc]
  simp only [h]

theorem length_nonzeroIn_le (c : Coo V) (pt : Nat) (cidx : List Nat) (hd : cidx.Nodup) (hb : ∀ j ∈ cidx, j < c.cols) :
    (nonzeroIn c pt ((List.range c.cols).filter (fun i => i ∉ cidx))).length ≤ c.cols - cidx.length := by
  have h1 : ((List.range c.cols).filter (fun i => i ∉ cidx)).length = c.cols - cidx.length := length_rest hd hb
  rw [← h1]
  refine List.Subperm.length_le (List.subperm_of_subset (List.nodup_range.filter _) ?_)
  intro j hj
  unfold nonzeroIn at hj
  exact (of_decide_eq_true (List.mem_filter.1 hj).2).1

/-- What is written when no collapsed element is zero: in row `p * k + q`, from the first feature on, the retained
values of point `p` that are not zero; then the name; then the value of point `p` in the feature `writtenFts[q]`. -/
theorem split_written {c : Coo V} (h : c.WF) (cidx : List Nat) (hd : cidx.Nodup) (hb : ∀ j ∈ cidx, j < c.cols)
    {names : List V} (hn : names.length = cidx.length)
    (hz : ∀ p < c.rows, ∀ j ∈ cidx, c.at p j ≠ 0) :
    ∃ c1, splitData (c.sortInternal .point false) cidx ((List.range c.cols).filter (fun i => i ∉ cidx)) names
        (c.cols - cidx.length) = .ok c1 ∧
      c1.rows = c.rows * cidx.length ∧ c1.cols = c.cols - cidx.length + 2 ∧ (c1.ents.map Ent.pos).Nodup ∧
      (∀ nm ∈ names, 0 < c.rows → ∃ e ∈ c1.ents, e.val = nm) ∧
      ∀ p < c.rows, ∀ q < cidx.length,
        (∀ t < c.cols - cidx.length, c1.at (p * cidx.length + q) t =
          (((nonzeroIn c p ((List.range c.cols).filter (fun i => i ∉ cidx))).map (c.at p))[t]?).getD 0) ∧
        some (c1.at (p * cidx.length + q) (c.cols - cidx.length)) = names[q]? ∧
        some (c1.at (p * cidx.length + q) (c.cols - cidx.length + 1)) =
          ((writtenFts c.cols cidx).map (c.at p))[q]? := by
  have hs := Coo.sortInternal_spec h.toCore .point false false (fun _ => h)
  generalize hC : c.sortInternal .point false = c' at hs
  have hat : ∀ i j, c'.at i j = c.at i j := fun i j => Coo.at_perm h.nodup hs.perm i j
  have hrv : ∀ p idxs, rowVals c'.ents p idxs = (nonzeroIn c p idxs).map (c.at p) := by
    intro p idxs
    rw [rowVals_eq hs.wf hs.sorted, nonzeroIn_congr hs.cols hat]
    exact List.map_congr_left (fun j _ => hat p j)
  have hcl : ∀ p < c.rows, nonzeroIn c p cidx = leftToRight c.cols cidx :=
    fun p hp => nonzeroIn_all (fun j hj _ => hz p hp j hj)
  have hlen : (leftToRight c.cols cidx).length = cidx.length := (leftToRight_perm hd hb).length_eq
  have hloop := splitLoop_ok (ents := c'.ents) (cidx := cidx)
    (retain := (List.range c.cols).filter (fun i => i ∉ cidx)) (names := names) (k := cidx.length)
    (w := c.cols - cidx.length) (pts := List.range c'.rows) (by
      intro p hp i hi
      rw [List.mem_range, hs.rows] at hp
      rw [hrv, List.length_map, hcl p hp, hlen]
      exact hi)
  have hents : (List.range c'.rows).flatMap (fun pt => splitEnts pt cidx.length (c.cols - cidx.length)
      (rowVals c'.ents pt ((List.range c.cols).filter (fun i => i ∉ cidx))) names
      (pick (rowVals c'.ents pt cidx) (argsort cidx))) =
      allEnts c.rows cidx.length (c.cols - cidx.length)
        (fun p => (nonzeroIn c p ((List.range c.cols).filter (fun i => i ∉ cidx))).map (c.at p)) names
        (fun p => (pick (nonzeroIn c p cidx) (argsort cidx)).map (c.at p)) := by
    unfold allEnts
    rw [hs.rows]
    simp only [hrv, pick_map]
  have hv : ∀ p < c.rows, ((pick (nonzeroIn c p cidx) (argsort cidx)).map (c.at p)).length = cidx.length := by
    intro p hp
    rw [List.length_map, length_pick, length_argsort]
    intro i hi
    rw [hcl p hp, hlen]
    exact mem_argsort.1 hi
  have hw : ∀ p < c.rows, ((nonzeroIn c p ((List.range c.cols).filter (fun i => i ∉ cidx))).map (c.at p)).length ≤
      c.cols - cidx.length := by
    intro p _
    rw [List.length_map]
    exact length_nonzeroIn_le c p cidx hd hb
  refine ⟨⟨c'.rows * cidx.length, c.cols - cidx.length + 2, allEnts c.rows cidx.length (c.cols - cidx.length)
        (fun p => (nonzeroIn c p ((List.range c.cols).filter (fun i => i ∉ cidx))).map (c.at p)) names
        (fun p => (pick (nonzeroIn c p cidx) (argsort cidx)).map (c.at p)), none, none⟩, ?_, ?_, rfl,
    allEnts_nodup hn hw, ?_, ?_⟩
  · unfold splitData
    rw [hloop, hents]
    rfl
  · show c'.rows * _ = _
    rw [hs.rows]
  · intro nm hnm h0
    obtain ⟨q, hq, hqe⟩ := List.getElem_of_mem hnm
    have hvq : ∃ v, ((pick (nonzeroIn c 0 cidx) (argsort cidx)).map (c.at 0))[q]? = some v :=
      ⟨_, List.getElem?_eq_getElem (by rw [hv 0 h0]; omega)⟩
    obtain ⟨v, hv0⟩ := hvq
    exact ⟨⟨0 * cidx.length + q, c.cols - cidx.length, nm⟩, mem_allEnts.2 ⟨0, h0, q, nm, v,
      by rw [List.getElem?_eq_getElem hq, hqe], hv0, mem_pointEnts.2 ⟨rfl, .inr (.inl ⟨rfl, rfl⟩)⟩⟩, rfl⟩
  · intro p hp q hq
    have := allEnts_at (R := c'.rows * cidx.length) (C := c.cols - cidx.length + 2) (s := none) (x := none) hn hv hw hp hq
    refine ⟨this.1, this.2.1, ?_⟩
    rw [this.2.2, hcl p hp]
    rfl

/-! ## `splitByCollapsingFeatures`: theorems -/

/-- Do all collapsed features have names, or none of them? -/
def NamedAlike (a : AxisSt) (cidx : List Nat) : Prop :=
  (∀ i ∈ cidx, (a.getNames[i]?).join = none) ∨ (∀ i ∈ cidx, ((a.getNames[i]?).join).isSome)

omit [Zero V] [DecidableEq V] in
theorem nameCells_alike (ops : CollapseOps V) {a : AxisSt} {cidx : List Nat} (h : NamedAlike a cidx) :
    nameCellsSp ops a cidx = Obj.nameCells ops a cidx := by
  unfold nameCellsSp Obj.nameCells
  by_cases hall : cidx.all (fun i => ((a.getNames[i]?).join).isNone) = true
  · rw [if_pos hall]
    refine List.map_congr_left ?_
    intro i hi
    have := List.all_eq_true.1 hall i hi
    rw [Option.isNone_iff_eq_none] at this
    rw [this]
  · rw [if_neg hall]
    refine List.map_congr_left ?_
    intro i hi
    rcases h with h | h
    · exfalso
      refine hall (List.all_eq_true.2 fun j hj => ?_)
      rw [h j hj]; rfl
    · obtain ⟨s, hs⟩ := Option.isSome_iff_exists.1 (h i hi)
      rw [hs]

omit [Zero V] [DecidableEq V] in
theorem length_nameCellsSp (ops : CollapseOps V) (a : AxisSt) (cidx : List Nat) :
    (nameCellsSp ops a cidx).length = cidx.length := by simp [nameCellsSp]

theorem dense_getElem' (c : Coo V) {p : Nat} (hp : p < c.rows) :
    c.dense[p]? = some ((List.range c.cols).map (c.at p)) := Coo.dense_getElem hp

/-- The retained values of a row. -/
theorem pick_row (c : Coo V) (p : Nat) (idxs : List Nat) (hb : ∀ j ∈ idxs, j < c.cols) :
    pick ((List.range c.cols).map (c.at p)) idxs = idxs.map (c.at p) := by
  unfold pick
  induction idxs with
  | nil => rfl
  | cons j js ih =>
    rw [List.filterMap_cons, List.getElem?_map, List.getElem?_range (hb j (by simp))]
    simp only [Option.map_some, List.map_cons]
    rw [ih (fun i hi => hb i (List.mem_cons_of_mem _ hi))]

/-- The documented table, cell by cell. -/
theorem collapsed_cell {c : Coo V} {cidx retain : List Nat} {names : List V} (hn : names.length = cidx.length)
    (hb : ∀ j ∈ cidx, j < c.cols) (hr : ∀ j ∈ retain, j < c.cols) {p q : Nat} (hp : p < c.rows) (hq : q < cidx.length) :
    ∃ nm v, names[q]? = some nm ∧ (cidx.map (c.at p))[q]? = some v ∧
      (Collapse.collapsedTable c.dense retain cidx names)[p * cidx.length + q]? = some (retain.map (c.at p) ++ [nm, v]) := by
  have hrow : ∀ r ∈ c.dense, (List.zipWith (fun c v => pick r retain ++ [c, v]) names (pick r cidx)).length =
      cidx.length := by
    intro r hr'
    obtain ⟨i, hi, rfl⟩ := List.mem_map.1 hr'
    rw [List.length_zipWith, pick_row c i cidx hb, List.length_map, hn, Nat.min_self]
  refine ⟨_, _, List.getElem?_eq_getElem (by omega), List.getElem?_eq_getElem (by simpa using hq), ?_⟩
  unfold Collapse.collapsedTable
  rw [getElem?_flatMap_block _ cidx.length c.dense hrow hq, dense_getElem' c hp, Option.bind_some,
    pick_row c p cidx hb, pick_row c p retain hr, List.getElem?_zipWith, List.getElem?_eq_getElem (by omega),
    List.getElem?_eq_getElem (by simpa using hq)]

theorem split_index {n k i : Nat} (h : i < n * k) : ∃ p q, p < n ∧ q < k ∧ i = p * k + q := by
  have hk : 0 < k := by
    rcases Nat.eq_zero_or_pos k with rfl | hk
    · simp at h
    · exact hk
  refine ⟨i / k, i % k, Nat.div_lt_of_lt_mul (by rwa [Nat.mul_comm]), Nat.mod_lt _ hk, ?_⟩
  rw [Nat.mul_comm]; exact (Nat.div_add_mod i k).symm

theorem collapsed_length {c : Coo V} {cidx retain : List Nat} {names : List V} (hn : names.length = cidx.length)
    (hb : ∀ j ∈ cidx, j < c.cols) : (Collapse.collapsedTable c.dense retain cidx names).length = c.rows * cidx.length := by
  unfold Collapse.collapsedTable
  have hrow : ∀ r ∈ c.dense, (List.zipWith (fun c v => pick r retain ++ [c, v]) names (pick r cidx)).length =
      cidx.length := by
    intro r hr'
    obtain ⟨i, hi, rfl⟩ := List.mem_map.1 hr'
    rw [List.length_zipWith, pick_row c i cidx hb, List.length_map, hn, Nat.min_self]
  rw [← Coo.length_dense c]
  generalize c.dense = rows at hrow
  induction rows with
  | nil => simp
  | cons r rs ih =>
    rw [List.flatMap_cons, List.length_append, hrow r (by simp), ih (fun r hr => hrow r (List.mem_cons_of_mem _ hr)),
      List.length_cons, Nat.succ_mul]
    omega

theorem retain_lt {n : Nat} {cidx : List Nat} : ∀ j ∈ (List.range n).filter (fun i => i ∉ cidx), j < n :=
  fun _ hj => List.mem_range.1 (List.mem_filter.1 hj).1

/-- Without zeros and for features in increasing order, the documented table. -/
theorem split_table {c c1 : Coo V} {cidx : List Nat} (hinc : cidx.Pairwise (· < ·)) (hb : ∀ j ∈ cidx, j < c.cols)
    {names : List V} (hn : names.length = cidx.length) (hz : ∀ p < c.rows, ∀ j < c.cols, c.at p j ≠ 0)
    (hr : c1.rows = c.rows * cidx.length) (hc : c1.cols = c.cols - cidx.length + 2)
    (hat : ∀ p < c.rows, ∀ q < cidx.length,
        (∀ t < c.cols - cidx.length, c1.at (p * cidx.length + q) t =
          (((nonzeroIn c p ((List.range c.cols).filter (fun i => i ∉ cidx))).map (c.at p))[t]?).getD 0) ∧
        some (c1.at (p * cidx.length + q) (c.cols - cidx.length)) = names[q]? ∧
        some (c1.at (p * cidx.length + q) (c.cols - cidx.length + 1)) =
          ((writtenFts c.cols cidx).map (c.at p))[q]?) :
    c1.dense = Collapse.collapsedTable c.dense ((List.range c.cols).filter (fun i => i ∉ cidx)) cidx names := by
  have hd : cidx.Nodup := hinc.imp (fun h => by omega)
  have hrl : ((List.range c.cols).filter (fun i => i ∉ cidx)).length = c.cols - cidx.length := length_rest hd hb
  have hcell : ∀ i < c1.rows, ∃ p q, p < c.rows ∧ q < cidx.length ∧ i = p * cidx.length + q := by
    intro i hi
    rw [hr] at hi
    exact split_index hi
  refine Coo.dense_ext (by rw [collapsed_length hn hb, hr]) ?_ ?_
  · intro r hr'
    obtain ⟨i, hi, hie⟩ := List.getElem_of_mem hr'
    obtain ⟨p, q, hp, hq, rfl⟩ := hcell i (by rw [hr, ← collapsed_length (c := c) (retain := (List.range c.cols).filter (fun i => i ∉ cidx)) hn hb]; exact hi)
    obtain ⟨nm, v, _, _, h3⟩ := collapsed_cell (c := c) (retain := (List.range c.cols).filter (fun i => i ∉ cidx))
      hn hb retain_lt hp hq
    rw [List.getElem?_eq_getElem hi, hie, Option.some.injEq] at h3
    rw [h3, hc, List.length_append, List.length_map, hrl]
    rfl
  · intro i j hi hj
    obtain ⟨p, q, hp, hq, rfl⟩ := hcell i hi
    obtain ⟨nm, v, h1, h2, h3⟩ := collapsed_cell (c := c) (retain := (List.range c.cols).filter (fun i => i ∉ cidx))
      hn hb retain_lt hp hq
    obtain ⟨g1, g2, g3⟩ := hat p hp q hq
    rw [h3, Option.bind_some]
    rw [h1, Option.some.injEq] at g2
    rw [writtenFts_increasing hinc hb, h2, Option.some.injEq] at g3
    have hml : (((List.range c.cols).filter (fun i => i ∉ cidx)).map (c.at p)).length = c.cols - cidx.length := by
      rw [List.length_map, hrl]
    have hret : nonzeroIn c p ((List.range c.cols).filter (fun i => i ∉ cidx)) =
        (List.range c.cols).filter (fun i => i ∉ cidx) := by
      rw [nonzeroIn_all (fun j _ hj => hz p hp j hj)]
      refine leftToRight_increasing (List.pairwise_lt_range.filter _) retain_lt
    rw [hc] at hj
    rcases Nat.lt_or_ge j (c.cols - cidx.length) with hlt | hge
    · rw [List.getElem?_append_left (by omega), g1 j hlt, hret, List.getElem?_eq_getElem (by omega)]
      rfl
    · rw [List.getElem?_append_right (by omega), hml]
      rcases Nat.eq_or_lt_of_le hge with rfl | hgt
      · rw [Nat.sub_self, g2]; rfl
      · have : j = c.cols - cidx.length + 1 := by omega
        subst this
        rw [show c.cols - cidx.length + 1 - (c.cols - cidx.length) = 1 by omega, g3]
        rfl

/-- **C96 (collapsing).**  For a Sparse object without zeros, and features given from left to right (all with names or
all without), `splitByCollapsingFeatures` does exactly what it does for the other types: the same table, names and
refusals.  Missing: objects with zeros and features in another order (see the `violated` theorems). -/
theorem C96_split_partial (ops : CollapseOps V) {o : SpObj V} (h : o.WF) {ids : List Ident} {cidx : List Nat}
    (hv : resolveIdents o.fts ids = .ok cidx) (hinc : cidx.Pairwise (· < ·))
    (hz : ∀ p < o.pts.len, ∀ j < o.fts.len, o.obj.elem? p j ≠ some 0) (hna : NamedAlike o.fts cidx)
    (hk : Collapse.KeepsCells ops o.obj (Collapse.retained o.obj cidx) cidx) (fn fv : String) :
    ((splitByCollapsing ops o ids fn fv).1.obj, (splitByCollapsing ops o ids fn fv).2) =
      Obj.splitByCollapsing ops o.obj ids fn fv := by
  have hd : cidx.Nodup := hinc.imp (fun h => by omega)
  have hlen := Collapse.resolved_length h.fts hv
  have hb : ∀ j ∈ cidx, j < o.coo.cols := by
    intro j hj
    rw [← h.nF]; exact resolveIdents_bound h.fts hv j hj
  have hz' : ∀ p < o.coo.rows, ∀ j < o.coo.cols, o.coo.at p j ≠ 0 := by
    intro p hp j hj h0
    refine hz p (by rw [h.nP]; exact hp) j (by rw [h.nF]; exact hj) ?_
    rw [obj_elem? h, if_pos ⟨hp, hj⟩, h0]
  obtain ⟨c1, e1, e2, e3, e4, _, e5⟩ := split_written h.coo cidx hd hb (length_nameCellsSp ops o.fts cidx)
    (fun p hp j hj => hz' p hp j (hb j hj))
  have htab := split_table hinc hb (length_nameCellsSp ops o.fts cidx) hz' e2 e3 e5
  have hrl : (Collapse.retained o.obj cidx).length = o.coo.cols - cidx.length := by
    rw [← h.nF]
    exact length_rest hd (fun j hj => show j < o.fts.len by rw [h.nF]; exact hb j hj)
  rw [Collapse.split_unfold h.obj ops (show resolveIdents o.obj.fts ids = .ok cidx from hv) hd hk]
  unfold splitByCollapsing
  rw [hv]
  dsimp only
  rw [← hlen, h.nF, e1]
  dsimp only
  have hobj : (⟨c1, ⟨o.pts.len * cidx.length, o.pts.tbl⟩, ⟨o.coo.cols - cidx.length + 2, o.fts.tbl⟩⟩ : SpObj V).obj =
      ⟨Collapse.collapsedTable o.obj.data (Collapse.retained o.obj cidx) cidx (Obj.nameCells ops o.obj.fts cidx),
        ⟨o.obj.pts.len * cidx.length, o.obj.pts.tbl⟩, ⟨(Collapse.retained o.obj cidx).length + 2, o.obj.fts.tbl⟩⟩ := by
    rw [hrl]
    unfold SpObj.obj
    rw [tableOf_eq e4, htab, nameCells_alike ops hna, tableOf_eq h.coo.nodup]
    congr 2
    unfold Collapse.retained
    rw [← h.nF]
  have hkept : ((List.range o.coo.cols).filter (fun i => i ∉ cidx)).map (fun i => (o.fts.getNames[i]?).join) =
      Collapse.keptNames o.obj (Collapse.retained o.obj cidx) := by
    unfold Collapse.keptNames Collapse.retained
    rw [show o.obj.fts.len = o.coo.cols from h.nF]
    rfl
  have hfts : (⟨(Collapse.retained o.obj cidx).length + 2, o.obj.fts.tbl⟩ : AxisSt) =
      ⟨o.coo.cols - cidx.length + 2, o.fts.tbl⟩ := by rw [hrl]; rfl
  rw [hkept, hfts]
  simp only [SpObj.obj] at hobj ⊢
  obtain ⟨hdat, _, _⟩ := Obj.mk.inj hobj
  cases hs1 : AxisSt.setNames ⟨o.coo.cols - cidx.length + 2, o.fts.tbl⟩
      (.list (Collapse.keptNames ⟨tableOf o.coo, o.pts, o.fts⟩ (Collapse.retained ⟨tableOf o.coo, o.pts, o.fts⟩ cidx) ++
        [some fn, some fv])) with
  | error e => simp only [hdat]
  | ok fts =>
    dsimp only
    cases ht : o.pts.tbl with
    | none => simp only [hdat]
    | some t =>
      dsimp only
      cases hs2 : AxisSt.setNames ⟨o.pts.len * cidx.length, some t⟩ (.list (Obj.splitNames cidx.length t.inv)) with
      | error e => simp only [hdat]
      | ok pts => simp only [hdat]

/-! ## What goes wrong with zeros and with the order -/

theorem nonzeroIn_short {c : Coo V} {p : Nat} {cidx : List Nat} (hd : cidx.Nodup) {j : Nat} (hj : j ∈ cidx)
    (h0 : c.at p j = 0) : (nonzeroIn c p cidx).length < cidx.length := by
  have hsub : (nonzeroIn c p cidx).Subperm (cidx.erase j) := by
    refine List.subperm_of_subset (List.nodup_range.filter _) ?_
    intro i hi
    have := of_decide_eq_true (List.mem_filter.1 hi).2
    refine (hd.mem_erase_iff).2 ⟨?_, this.1⟩
    rintro rfl
    exact this.2 h0
  have h1 := hsub.length_le
  rw [List.length_erase_of_mem hj] at h1
  have := List.length_pos_of_mem hj
  omega

/-- **C96 (a zero in a collapsed feature).**  A single zero in one of the collapsed features makes the call fail with
an index error, whatever the other elements are; the values and the names stay as they were. -/
theorem C96_split_zero_violated (ops : CollapseOps V) {o : SpObj V} (h : o.WF) {ids : List Ident} {cidx : List Nat}
    (hv : resolveIdents o.fts ids = .ok cidx) (hd : cidx.Nodup) {p j : Nat} (hj : j ∈ cidx)
    (h0 : o.obj.elem? p j = some 0) (fn fv : String) :
    (splitByCollapsing ops o ids fn fv).2 = .error .IndexError ∧ (splitByCollapsing ops o ids fn fv).1.obj = o.obj := by
  rw [obj_elem? h] at h0
  split at h0
  · next hb =>
    have hs := Coo.sortInternal_spec h.coo.toCore .point false false (fun _ => h.coo)
    have hat : ∀ i j, (o.coo.sortInternal .point false).at i j = o.coo.at i j :=
      fun i j => Coo.at_perm h.coo.nodup hs.perm i j
    have hloop := splitLoop_error (ents := (o.coo.sortInternal .point false).ents) (cidx := cidx)
      (retain := (List.range o.fts.len).filter (fun i => i ∉ cidx)) (names := nameCellsSp ops o.fts cidx)
      (k := cidx.length) (w := o.fts.len - ids.length) (pts := List.range (o.coo.sortInternal .point false).rows)
      ⟨p, List.mem_range.2 (by rw [hs.rows]; exact hb.1), by
        rw [rowVals_eq hs.wf hs.sorted, List.length_map, nonzeroIn_congr hs.cols hat]
        exact nonzeroIn_short hd hj (Option.some.inj h0)⟩
    have hdata : splitData (o.coo.sortInternal .point false) cidx ((List.range o.fts.len).filter (fun i => i ∉ cidx))
        (nameCellsSp ops o.fts cidx) (o.fts.len - ids.length) = .error .IndexError := by
      unfold splitData
      rw [hloop]
      rfl
    unfold splitByCollapsing
    rw [hv]
    dsimp only
    rw [hdata]
    refine ⟨rfl, ?_⟩
    unfold SpObj.obj
    dsimp only
    rw [tableOf_eq hs.wf.nodup, tableOf_eq h.coo.nodup, hs.dense h.coo.nodup]
  · cases h0

/-- Values with the zeros moved to the end. -/
def packed (l : List V) : List V := l.filter (fun v => decide (v ≠ 0)) ++ List.replicate (l.length - (l.filter (fun v => decide (v ≠ 0))).length) 0

/-- What is really written: for every point and every collapsed feature the retained values *with their zeros moved to
the end*, the feature's name and the point's value in the feature `written` says. -/
def writtenTable (rows : List (List V)) (retain written : List Nat) (names : List V) : List (List V) :=
  rows.flatMap (fun r => List.zipWith (fun nm v => packed (pick r retain) ++ [nm, v]) names (pick r written))

theorem packed_length (l : List V) : (packed l).length = l.length := by
  unfold packed
  have := List.length_filter_le (fun v : V => decide (v ≠ 0)) l
  rw [List.length_append, List.length_replicate]
  omega

theorem packed_getElem (l : List V) {t : Nat} (ht : t < l.length) :
    (packed l)[t]? = some (((l.filter (fun v => decide (v ≠ 0)))[t]?).getD 0) := by
  unfold packed
  by_cases hlt : t < (l.filter (fun v => decide (v ≠ 0))).length
  · rw [List.getElem?_append_left hlt, List.getElem?_eq_getElem hlt]
    rfl
  · rw [List.getElem?_append_right (by omega), List.getElem?_replicate, if_pos (by omega),
      List.getElem?_eq_none (by omega)]
    rfl

/-- With a zero before a value that is not zero, the values move. -/
theorem packed_ne {l : List V} {a b : Nat} (hab : a < b) (ha : l[a]? = some 0) (hb : ∃ v, l[b]? = some v ∧ v ≠ 0) :
    packed l ≠ l := by
  intro heq
  have hsplit : ∀ (l m : List V), packed l = m → ∀ (i j : Nat), i < j → m[i]? = some 0 → ∀ v, m[j]? = some v → v = 0 := by
    intro l m hm i j hij hi v hv
    subst hm
    unfold packed at hi hv
    have hle : (l.filter (fun v => decide (v ≠ 0))).length ≤ i := by
      by_contra hc
      rw [List.getElem?_append_left (by omega)] at hi
      have := List.mem_of_getElem? hi
      exact (of_decide_eq_true (List.mem_filter.1 this).2) rfl
    rw [List.getElem?_append_right (by omega), List.getElem?_replicate] at hv
    split at hv
    · exact (Option.some.inj hv).symm
    · cases hv
  obtain ⟨v, hv, hne⟩ := hb
  exact hne (hsplit l l heq a b hab ha v hv)

theorem nonzeroIn_retain (c : Coo V) (p : Nat) (cidx : List Nat) :
    (nonzeroIn c p ((List.range c.cols).filter (fun i => i ∉ cidx))).map (c.at p) =
      (((List.range c.cols).filter (fun i => i ∉ cidx)).map (c.at p)).filter (fun v => decide (v ≠ 0)) := by
  unfold nonzeroIn
  rw [List.filter_map, List.filter_filter]
  congr 1
  refine List.filter_congr ?_
  intro j hj
  rw [List.mem_range] at hj
  simp only [List.mem_filter, List.mem_range, Function.comp, hj, true_and, decide_eq_true_eq]
  rw [Bool.eq_iff_iff]
  simp [and_comm]

theorem writtenFts_lt {cols : Nat} {cidx : List Nat} : ∀ j ∈ writtenFts cols cidx, j < cols := by
  intro j hj
  obtain ⟨i, _, hi⟩ := List.mem_filterMap.1 hj
  exact List.mem_range.1 (List.mem_filter.1 (List.mem_of_getElem? hi)).1

theorem length_writtenFts {cols : Nat} {cidx : List Nat} (hd : cidx.Nodup) (hb : ∀ j ∈ cidx, j < cols) :
    (writtenFts cols cidx).length = cidx.length := by
  unfold writtenFts
  rw [length_pick, length_argsort]
  intro i hi
  rw [(leftToRight_perm hd hb).length_eq]
  exact mem_argsort.1 hi

theorem written_block {c : Coo V} {written retain : List Nat} {names : List V} (hn : names.length = written.length)
    (hb : ∀ j ∈ written, j < c.cols) : ∀ r ∈ c.dense,
    (List.zipWith (fun nm v => packed (pick r retain) ++ [nm, v]) names (pick r written)).length = written.length := by
  intro r hr'
  obtain ⟨i, hi, rfl⟩ := List.mem_map.1 hr'
  rw [List.length_zipWith, pick_row c i written hb, List.length_map, hn, Nat.min_self]

/-- The table written, cell by cell. -/
theorem written_cell {c : Coo V} {written retain : List Nat} {names : List V} (hn : names.length = written.length)
    (hb : ∀ j ∈ written, j < c.cols) (hr : ∀ j ∈ retain, j < c.cols) {p q : Nat} (hp : p < c.rows)
    (hq : q < written.length) :
    ∃ nm v, names[q]? = some nm ∧ (written.map (c.at p))[q]? = some v ∧
      (writtenTable c.dense retain written names)[p * written.length + q]? =
        some (packed (retain.map (c.at p)) ++ [nm, v]) := by
  refine ⟨_, _, List.getElem?_eq_getElem (by omega), List.getElem?_eq_getElem (by simpa using hq), ?_⟩
  unfold writtenTable
  rw [getElem?_flatMap_block _ written.length c.dense (written_block hn hb) hq, dense_getElem' c hp, Option.bind_some,
    pick_row c p written hb, pick_row c p retain hr, List.getElem?_zipWith, List.getElem?_eq_getElem (by omega),
    List.getElem?_eq_getElem (by simpa using hq)]

theorem length_flatMap_block {A B : Type} (f : A → List B) (k : Nat) (l : List A) (hf : ∀ x ∈ l, (f x).length = k) :
    (l.flatMap f).length = l.length * k := by
  induction l with
  | nil => simp
  | cons x l ih =>
    rw [List.flatMap_cons, List.length_append, hf x (by simp), ih (fun y hy => hf y (List.mem_cons_of_mem _ hy)),
      List.length_cons, Nat.succ_mul]
    omega

theorem split_dense {c c1 : Coo V} {cidx : List Nat} (hd : cidx.Nodup) (hb : ∀ j ∈ cidx, j < c.cols)
    {names : List V} (hn : names.length = cidx.length)
    (hr : c1.rows = c.rows * cidx.length) (hc : c1.cols = c.cols - cidx.length + 2)
    (hat : ∀ p < c.rows, ∀ q < cidx.length,
        (∀ t < c.cols - cidx.length, c1.at (p * cidx.length + q) t =
          (((nonzeroIn c p ((List.range c.cols).filter (fun i => i ∉ cidx))).map (c.at p))[t]?).getD 0) ∧
        some (c1.at (p * cidx.length + q) (c.cols - cidx.length)) = names[q]? ∧
        some (c1.at (p * cidx.length + q) (c.cols - cidx.length + 1)) =
          ((writtenFts c.cols cidx).map (c.at p))[q]?) :
    c1.dense = writtenTable c.dense ((List.range c.cols).filter (fun i => i ∉ cidx)) (writtenFts c.cols cidx) names := by
  have hrl : ((List.range c.cols).filter (fun i => i ∉ cidx)).length = c.cols - cidx.length := length_rest hd hb
  have hwl := length_writtenFts hd hb
  have hlen : (writtenTable c.dense ((List.range c.cols).filter (fun i => i ∉ cidx)) (writtenFts c.cols cidx)
      names).length = c.rows * cidx.length := by
    unfold writtenTable
    rw [length_flatMap_block _ _ _ (written_block (hn.trans hwl.symm) writtenFts_lt), Coo.length_dense, hwl]
  have hcell : ∀ i < c1.rows, ∃ p q, p < c.rows ∧ q < cidx.length ∧ i = p * cidx.length + q := by
    intro i hi
    rw [hr] at hi
    exact split_index hi
  have hcell' := fun p hp q hq => written_cell (c := c) (retain := (List.range c.cols).filter (fun i => i ∉ cidx))
      (hn.trans hwl.symm) writtenFts_lt retain_lt (p := p) (q := q) hp hq
  rw [hwl] at hcell'
  refine Coo.dense_ext (by rw [hlen, hr]) ?_ ?_
  · intro r hr'
    obtain ⟨i, hi, hie⟩ := List.getElem_of_mem hr'
    obtain ⟨p, q, hp, hq, rfl⟩ := hcell i (by rw [hr, ← hlen]; exact hi)
    obtain ⟨nm, v, _, _, h3⟩ := hcell' p hp q hq
    rw [List.getElem?_eq_getElem hi, hie, Option.some.injEq] at h3
    rw [h3, hc, List.length_append, packed_length, List.length_map, hrl]
    rfl
  · intro i j hi hj
    obtain ⟨p, q, hp, hq, rfl⟩ := hcell i hi
    obtain ⟨nm, v, h1, h2, h3⟩ := hcell' p hp q hq
    obtain ⟨g1, g2, g3⟩ := hat p hp q hq
    rw [h3, Option.bind_some]
    rw [h1, Option.some.injEq] at g2
    rw [h2, Option.some.injEq] at g3
    have hml : (packed (((List.range c.cols).filter (fun i => i ∉ cidx)).map (c.at p))).length =
        c.cols - cidx.length := by
      rw [packed_length, List.length_map, hrl]
    rw [hc] at hj
    rcases Nat.lt_or_ge j (c.cols - cidx.length) with hlt | hge
    · rw [List.getElem?_append_left (by omega), g1 j hlt, nonzeroIn_retain,
        packed_getElem _ (by rw [List.length_map, hrl]; exact hlt)]
    · rw [List.getElem?_append_right (by omega), hml]
      rcases Nat.eq_or_lt_of_le hge with rfl | hgt
      · rw [Nat.sub_self, g2]; rfl
      · have : j = c.cols - cidx.length + 1 := by omega
        subst this
        rw [show c.cols - cidx.length + 1 - (c.cols - cidx.length) = 1 by omega, g3]
        rfl

/-- **C96 (what collapsing writes).**  When no element of a collapsed feature is zero, the table afterwards - also when
the names are then refused - is `writtenTable`: the retained values of each point have their zeros moved to the end, and
next to the name of the feature `cidx[q]` stands the value of the feature `(writtenFts …)[q]`. -/
theorem C96_split_written (ops : CollapseOps V) {o : SpObj V} (h : o.WF) {ids : List Ident} {cidx : List Nat}
    (hv : resolveIdents o.fts ids = .ok cidx) (hd : cidx.Nodup)
    (hz : ∀ (p : Nat), ∀ j ∈ cidx, o.obj.elem? p j ≠ some 0) (fn fv : String) :
    (splitByCollapsing ops o ids fn fv).1.obj.data = writtenTable o.obj.data (Collapse.retained o.obj cidx)
      (writtenFts o.fts.len cidx) (nameCellsSp ops o.fts cidx) := by
  have hlen := Collapse.resolved_length h.fts hv
  have hb : ∀ j ∈ cidx, j < o.coo.cols := by
    intro j hj
    rw [← h.nF]; exact resolveIdents_bound h.fts hv j hj
  have hz' : ∀ p < o.coo.rows, ∀ j ∈ cidx, o.coo.at p j ≠ 0 := by
    intro p hp j hj h0
    refine hz p j hj ?_
    rw [obj_elem? h, if_pos ⟨hp, hb j hj⟩, h0]
  obtain ⟨c1, e1, e2, e3, e4, _, e5⟩ := split_written h.coo cidx hd hb (length_nameCellsSp ops o.fts cidx) hz'
  have htab := split_dense hd hb (length_nameCellsSp ops o.fts cidx) e2 e3 e5
  have hgoal : tableOf c1 = writtenTable o.obj.data (Collapse.retained o.obj cidx)
      (writtenFts o.fts.len cidx) (nameCellsSp ops o.fts cidx) := by
    rw [tableOf_eq e4, htab]
    unfold Collapse.retained SpObj.obj
    dsimp only
    rw [tableOf_eq h.coo.nodup, h.nF]
  unfold splitByCollapsing
  rw [hv]
  dsimp only
  rw [← hlen, h.nF, e1]
  dsimp only
  split
  · rw [← h.nF]; exact hgoal
  · split
    · rw [← h.nF]; exact hgoal
    · split
      · rw [← h.nF]; exact hgoal
      · rw [← h.nF]; exact hgoal

theorem elem_some {o : SpObj V} (h : o.WF) {p j : Nat} {v : V} (he : o.obj.elem? p j = some v) :
    p < o.coo.rows ∧ j < o.coo.cols ∧ o.coo.at p j = v := by
  rw [obj_elem? h] at he
  split at he
  · next hb => exact ⟨hb.1, hb.2, Option.some.inj he⟩
  · cases he

theorem retained_eq {o : SpObj V} (h : o.WF) (cidx : List Nat) :
    Collapse.retained o.obj cidx = (List.range o.coo.cols).filter (fun i => i ∉ cidx) := by
  unfold Collapse.retained
  rw [show o.obj.fts.len = o.coo.cols from h.nF]

/-- **C96 (zeros among the retained values).**  If a point has a zero in a retained feature and a value that is not
zero in a retained feature further right, the call writes a wrong table: it is not the documented one. -/
theorem C96_split_shift_violated (ops : CollapseOps V) {o : SpObj V} (h : o.WF) {ids : List Ident} {cidx : List Nat}
    (hv : resolveIdents o.fts ids = .ok cidx) (hd : cidx.Nodup) (hne : cidx ≠ [])
    (hz : ∀ (p : Nat), ∀ j ∈ cidx, o.obj.elem? p j ≠ some 0) {p a b : Nat} (hab : a < b) (ha : a ∉ cidx) (hb : b ∉ cidx)
    (h0 : o.obj.elem? p a = some 0) {v : V} (h1 : o.obj.elem? p b = some v) (hv0 : v ≠ 0) (fn fv : String) :
    (splitByCollapsing ops o ids fn fv).1.obj.data ≠
      Collapse.collapsedTable o.obj.data (Collapse.retained o.obj cidx) cidx (nameCellsSp ops o.fts cidx) := by
  rw [C96_split_written ops h hv hd hz]
  obtain ⟨hp, hac, ha0⟩ := elem_some h h0
  obtain ⟨_, hbc, hb0⟩ := elem_some h h1
  have hcb : ∀ j ∈ cidx, j < o.coo.cols := by
    intro j hj
    rw [← h.nF]; exact resolveIdents_bound h.fts hv j hj
  have hdata : o.obj.data = o.coo.dense := tableOf_eq h.coo.nodup
  rw [retained_eq h, hdata, h.nF]
  have hwl := length_writtenFts hd hcb
  have hq : 0 < cidx.length := List.length_pos_iff.2 hne
  obtain ⟨nm, w, _, _, e3⟩ := written_cell (c := o.coo) (retain := (List.range o.coo.cols).filter (fun i => i ∉ cidx))
    ((length_nameCellsSp ops o.fts cidx).trans hwl.symm) writtenFts_lt retain_lt hp (q := 0) (by omega)
  obtain ⟨nm', w', _, _, e3'⟩ := collapsed_cell (c := o.coo) (retain := (List.range o.coo.cols).filter (fun i => i ∉ cidx))
    (length_nameCellsSp ops o.fts cidx) hcb retain_lt hp hq
  rw [hwl] at e3
  intro heq
  rw [heq, e3', Option.some.injEq] at e3
  have hlen : ((List.filter (fun i => decide (i ∉ cidx)) (List.range o.coo.cols)).map (o.coo.at p)).length =
      (packed ((List.filter (fun i => decide (i ∉ cidx)) (List.range o.coo.cols)).map (o.coo.at p))).length :=
    (packed_length _).symm
  have hpk := (List.append_inj e3 hlen).1
  have hpos : ∀ i, i ∉ cidx → i < o.coo.cols → ∃ (t : Nat),
      ((List.range o.coo.cols).filter (fun i => i ∉ cidx))[t]? = some i := by
    intro i hi hic
    exact List.getElem?_of_mem (List.mem_filter.2 ⟨List.mem_range.2 hic, by simpa using hi⟩)
  obtain ⟨ta, hta⟩ := hpos a ha hac
  obtain ⟨tb, htb⟩ := hpos b hb hbc
  have hinc : ((List.range o.coo.cols).filter (fun i => i ∉ cidx)).Pairwise (· < ·) := List.pairwise_lt_range.filter _
  have hlt : ta < tb := by
    obtain ⟨la, ga⟩ := List.getElem?_eq_some_iff.1 hta
    obtain ⟨lb, gb⟩ := List.getElem?_eq_some_iff.1 htb
    rcases Nat.lt_trichotomy ta tb with hlt | rfl | hgt
    · exact hlt
    · omega
    · have := List.pairwise_iff_getElem.1 hinc tb ta lb la hgt
      omega
  refine packed_ne hlt (l := ((List.range o.coo.cols).filter (fun i => i ∉ cidx)).map (o.coo.at p)) ?_ ⟨v, ?_, hv0⟩
    hpk.symm
  · rw [List.getElem?_map, hta, Option.map_some, ha0]
  · rw [List.getElem?_map, htb, Option.map_some, hb0]

/-- **C96 (features given in another order).**  Next to the name of the feature `cidx[q]` stands the value of the
feature `(writtenFts …)[q]`; if these differ in a point, the table is not the documented one. -/
theorem C96_split_order_violated (ops : CollapseOps V) {o : SpObj V} (h : o.WF) {ids : List Ident} {cidx : List Nat}
    (hv : resolveIdents o.fts ids = .ok cidx) (hd : cidx.Nodup)
    (hz : ∀ (p : Nat), ∀ j ∈ cidx, o.obj.elem? p j ≠ some 0) {p q a b : Nat} (hp : p < o.pts.len)
    (ha : cidx[q]? = some a) (hb : (writtenFts o.fts.len cidx)[q]? = some b)
    (hab : o.obj.elem? p a ≠ o.obj.elem? p b) (fn fv : String) :
    (splitByCollapsing ops o ids fn fv).1.obj.data ≠
      Collapse.collapsedTable o.obj.data (Collapse.retained o.obj cidx) cidx (nameCellsSp ops o.fts cidx) := by
  rw [C96_split_written ops h hv hd hz]
  have hcb : ∀ j ∈ cidx, j < o.coo.cols := by
    intro j hj
    rw [← h.nF]; exact resolveIdents_bound h.fts hv j hj
  have hdata : o.obj.data = o.coo.dense := tableOf_eq h.coo.nodup
  rw [h.nP] at hp
  rw [h.nF] at hb ⊢
  have hac := hcb a (List.mem_of_getElem? ha)
  have hbc := writtenFts_lt b (List.mem_of_getElem? hb)
  rw [obj_elem? h, obj_elem? h, if_pos ⟨hp, hac⟩, if_pos ⟨hp, hbc⟩] at hab
  rw [retained_eq h, hdata]
  have hwl := length_writtenFts hd hcb
  have hq : q < cidx.length := (List.getElem?_eq_some_iff.1 ha).1
  obtain ⟨nm, w, _, g, e3⟩ := written_cell (c := o.coo) (retain := (List.range o.coo.cols).filter (fun i => i ∉ cidx))
    ((length_nameCellsSp ops o.fts cidx).trans hwl.symm) writtenFts_lt retain_lt hp (q := q) (by omega)
  obtain ⟨nm', w', _, g', e3'⟩ := collapsed_cell (c := o.coo) (retain := (List.range o.coo.cols).filter (fun i => i ∉ cidx))
    (length_nameCellsSp ops o.fts cidx) hcb retain_lt hp hq
  rw [List.getElem?_map, hb, Option.map_some, Option.some.injEq] at g
  rw [List.getElem?_map, ha, Option.map_some, Option.some.injEq] at g'
  rw [hwl] at e3
  intro heq
  rw [heq, e3', Option.some.injEq] at e3
  have hlen : ((List.filter (fun i => decide (i ∉ cidx)) (List.range o.coo.cols)).map (o.coo.at p)).length =
      (packed ((List.filter (fun i => decide (i ∉ cidx)) (List.range o.coo.cols)).map (o.coo.at p))).length :=
    (packed_length _).symm
  have h2 := (List.append_inj e3 hlen).2
  simp only [List.cons.injEq, and_true] at h2
  exact hab (by rw [g, g', h2.2])

/-! ## combineByExpandingFeatures -/

section
omit [DecidableEq V] [Zero V]

theorem mem_rowEnts {rows : List (List V)} {e : Ent V} :
    e ∈ rowEnts rows ↔ (rows[e.row]?).bind (·[e.col]?) = some e.val := by
  obtain ⟨i, j, v⟩ := e
  unfold rowEnts
  simp only [List.mem_flatMap, List.mem_map, Prod.exists, List.mk_mem_zipIdx_iff_getElem?, Ent.mk.injEq,
    Option.bind_eq_some_iff]
  constructor
  · rintro ⟨r, i', h1, v', j', h2, rfl, rfl, rfl⟩; exact ⟨r, h1, h2⟩
  · rintro ⟨r, h1, h2⟩; exact ⟨r, i, h1, v, j, h2, rfl, rfl, rfl⟩

theorem rowEnts_nodup (rows : List (List V)) : ((rowEnts rows).map Ent.pos).Nodup := by
  unfold rowEnts
  rw [List.map_flatMap, List.nodup_flatMap]
  constructor
  · intro p _
    rw [List.map_map]
    have : (fun q : V × Nat => Ent.pos (⟨p.2, q.2, q.1⟩ : Ent V)) = (fun j => (p.2, j)) ∘ Prod.snd := rfl
    show (List.map (fun q : V × Nat => Ent.pos (⟨p.2, q.2, q.1⟩ : Ent V)) _).Nodup
    rw [this, ← List.map_map, List.zipIdx_map_snd]
    exact List.Nodup.map (fun a b hab => congrArg Prod.snd hab) List.nodup_range'
  · have hz : (rows.zipIdx.map Prod.snd).Nodup := by
      rw [List.zipIdx_map_snd]; exact List.nodup_range'
    refine (List.pairwise_map.1 hz).imp ?_
    intro a b hab
    rw [Function.onFun, List.disjoint_left]
    intro x hx hy
    obtain ⟨e, he, rfl⟩ := List.mem_map.1 hx
    obtain ⟨e', he', hh⟩ := List.mem_map.1 hy
    obtain ⟨q, _, rfl⟩ := List.mem_map.1 he
    obtain ⟨q', _, rfl⟩ := List.mem_map.1 he'
    exact hab (congrArg Prod.fst hh).symm
end

omit [DecidableEq V] in
theorem rowEnts_dense {rows : List (List V)} {w : Nat} (h : ∀ r ∈ rows, r.length = w) (s : Option Ax)
    (x : Option (List Nat)) : (⟨rows.length, w, rowEnts rows, s, x⟩ : Coo V).dense = rows := by
  refine Coo.dense_ext rfl h ?_
  intro i j hi hj
  have hi' : i < rows.length := hi
  have hj' : j < rows[i].length := by rw [h _ (List.getElem_mem _)]; exact hj
  have hm : (⟨i, j, rows[i][j]⟩ : Ent V) ∈ rowEnts rows := by
    refine mem_rowEnts.2 ?_
    simp [hi', hj']
  have := Coo.at_of_mem (c := (⟨rows.length, w, rowEnts rows, s, x⟩ : Coo V)) (rowEnts_nodup rows) hm
  rw [this]
  simp [hi', hj']

open Collapse in
omit [Zero V] in
theorem expandPoint_eq (nan : V) (ni e : Nat) (T : List (Part V)) :
    (stateOf T).unique.map (expandPoint nan ni e (stateOf T).uniqueNames) = expandedTable nan ni e T := by
  unfold stateOf expandedTable expandPoint
  simp only [List.map_map]
  refine List.map_congr_left ?_
  intro k _
  simp only [Function.comp]
  rw [show (fun nm => (PyDict.get? ((T.filter (fun t => decide (t.key = k))).map
        (fun t => (t.nm, t.vals))) nm).getD (List.replicate e nan)) = valuesFor nan e T k from
      funext (fun nm => get?_filterMap nm nan e)]

open Collapse in
omit [Zero V] in
theorem expandedTable_width {nan : V} {ni e u : Nat} {T : List (Part V)} (hu : ∀ t ∈ T, t.key.length = u)
    (hv : ∀ t ∈ T, t.vals.length = e) :
    ∀ r ∈ expandedTable nan ni e T, r.length = u + (firstOcc (T.map Part.nm)).length * e := by
  intro r hr
  obtain ⟨k, hk, rfl⟩ := List.mem_map.1 hr
  obtain ⟨t, ht, rfl⟩ := List.mem_map.1 (mem_firstOcc.1 hk)
  have hlen : ∀ nm ∈ firstOcc (T.map Part.nm), (valuesFor nan e T t.key nm).length = e := by
    intro nm _
    unfold valuesFor
    split
    · next t' ht' => exact hv t' (List.mem_of_find?_eq_some ht')
    · simp
  rw [List.length_append, List.length_append, length_flatMap_block _ e _ hlen, List.length_take, List.length_drop,
    hu t ht]
  omega

open Collapse in
/-- The matrix built: the documented table, every cell of it stored. -/
theorem expand_matrix {nan : V} {ni e u : Nat} {T : List (Part V)} (hu : ∀ t ∈ T, t.key.length = u)
    (hv : ∀ t ∈ T, t.vals.length = e) :
    tableOf (expandData nan ni e (u + (firstOcc (T.map Part.nm)).length * e) (stateOf T)) = expandedTable nan ni e T := by
  unfold expandData
  rw [expandPoint_eq]
  have hl : (stateOf T).unique.length = (expandedTable nan ni e T).length := by
    rw [← expandPoint_eq, List.length_map]
  rw [hl, tableOf_eq (rowEnts_nodup _), rowEnts_dense (expandedTable_width hu hv)]

open Collapse in
/-- **C96 (expanding).**  `combineByExpandingFeatures` of a Sparse object - with any zeros - does exactly what it does
for the other types: the same table, names, refusals.  (How the result is stored is another matter, see
`C96_combine_stored_violated`.) -/
theorem C96_combine (ops : CollapseOps V) {o : SpObj V} (h : o.WF) {namesId : Ident} {valueIds : List Ident}
    {ni : Nat} {vidx : List Nat} {vnames : List String} (hn : o.fts.getIndex namesId = .ok (ni : Int))
    (hv : resolveIdents o.fts valueIds = .ok vidx) (hd : (ni :: vidx).Nodup)
    (hpos : ni + 1 + vidx.length ≤ o.fts.len) (hvn : ValueNames valueIds vnames) :
    ((combineByExpanding ops o namesId valueIds false).1.obj, (combineByExpanding ops o namesId valueIds false).2) =
      Obj.combineByExpanding ops o.obj namesId valueIds false := by
  have hbn : ni < o.fts.len := by
    have := getIndex_bound h.fts hn; omega
  have hb : ∀ i ∈ ni :: vidx, i < o.fts.len := by
    intro i hi
    rcases List.mem_cons.1 hi with rfl | hi
    · exact hbn
    · exact resolveIdents_bound h.fts hv i hi
  obtain ⟨f1, f2, f3, f4⟩ := row_facts h.obj hd hb ops.undef
  have hlen := resolve_length h.fts hv
  rw [combine_unfold h.obj ops (show o.obj.fts.getIndex namesId = _ from hn)
    (show resolveIdents o.obj.fts valueIds = _ from hv) hd hpos hvn]
  unfold combineByExpanding
  rw [hn, hv]
  dsimp only
  rw [Int.toNat_natCast, if_neg (fun hc => hc.1 (List.nodup_cons.1 hd).2)]
  have hloop : Obj.expandLoop ((List.range o.fts.len).filter (fun i => i ∉ ni :: vidx)) ni vidx
      (o.pts.getNames.zip o.obj.data) {} =
      (parts o.obj (uncombined o.obj ni vidx) ni vidx ops.undef).foldlM stepP {} :=
    expandLoop_eq (uncombined o.obj ni vidx) ni vidx ops.undef _ f4 {}
  rw [hloop, loop_state]
  by_cases hp : ((parts o.obj (uncombined o.obj ni vidx) ni vidx ops.undef).map (fun t => (t.key, t.nm))).Nodup
  · rw [if_pos hp, if_pos hp]
    dsimp only
    have hun : (stateOf (parts o.obj (uncombined o.obj ni vidx) ni vidx ops.undef)).uniqueNames =
      firstOcc ((parts o.obj (uncombined o.obj ni vidx) ni vidx ops.undef).map Part.nm) := rfl
    rw [hun]
    cases hpre : Obj.prefixes ops false
        (firstOcc ((parts o.obj (uncombined o.obj ni vidx) ni vidx ops.undef).map Part.nm)) with
    | error x => rfl
    | ok ps =>
      dsimp only
      have hnum : o.fts.len + (firstOcc ((parts o.obj (uncombined o.obj ni vidx) ni vidx ops.undef).map
          Part.nm)).length * valueIds.length - (1 + valueIds.length) = (o.fts.len - (1 + vidx.length)) +
            (firstOcc ((parts o.obj (uncombined o.obj ni vidx) ni vidx ops.undef).map Part.nm)).length
              * vidx.length := by
        rw [← hlen]
        omega
      rw [hnum, expandedNames_eq hvn, ← hlen]
      dsimp only
      have hk : (stateOf (parts o.obj (uncombined o.obj ni vidx) ni vidx ops.undef)).unique.length
          = (firstOcc ((parts o.obj (uncombined o.obj ni vidx) ni vidx ops.undef).map Part.key)).length := by
        simp [stateOf]
      have hpn : (stateOf (parts o.obj (uncombined o.obj ni vidx) ni vidx ops.undef)).pNames =
        firstNames (parts o.obj (uncombined o.obj ni vidx) ni vidx ops.undef) := rfl
      have hmat := expand_matrix (nan := ops.nan) (ni := ni) f1 f2
      rw [hk, f3, hpn]
      have hunc : (List.range o.fts.len).filter (fun i => i ∉ ni :: vidx) = uncombined o.obj ni vidx := rfl
      rw [hunc]
      simp only [SpObj.obj] at hmat ⊢
      cases hf : Obj.finalFeatureNames ⟨o.fts.len - (1 + vidx.length) + (firstOcc ((parts ⟨tableOf o.coo, o.pts, o.fts⟩
          (uncombined ⟨tableOf o.coo, o.pts, o.fts⟩ ni vidx) ni vidx ops.undef).map Part.nm)).length * vidx.length,
          o.fts.tbl⟩ o.fts (uncombined ⟨tableOf o.coo, o.pts, o.fts⟩ ni vidx) ni (newLabels ps vnames) with
      | mk fts res =>
        cases res with
        | error x => simp only [hmat]
        | ok _ =>
          dsimp only
          cases ht : o.pts.tbl with
          | none => simp only [hmat]
          | some t =>
            dsimp only
            split <;> (rename_i heq; simp only [hmat, heq])
  · rw [if_neg hp, if_neg hp]

open Collapse in
/-- The matrix of an accepted call, wherever the features with values are. -/
theorem combine_coo (ops : CollapseOps V) {o r : SpObj V} (h : o.WF) {namesId : Ident}
    {valueIds : List Ident} {ni : Nat} {vidx : List Nat}
    (hn : o.fts.getIndex namesId = .ok (ni : Int)) (hv : resolveIdents o.fts valueIds = .ok vidx)
    (hd : (ni :: vidx).Nodup) (hr : combineByExpanding ops o namesId valueIds false = (r, .ok ())) :
    tableOf r.coo = expandedTable ops.nan ni vidx.length (parts o.obj (uncombined o.obj ni vidx) ni vidx ops.undef) ∧
    r.coo.ents = rowEnts (tableOf r.coo) := by
  have hbn : ni < o.fts.len := by
    have := getIndex_bound h.fts hn; omega
  have hb : ∀ i ∈ ni :: vidx, i < o.fts.len := by
    intro i hi
    rcases List.mem_cons.1 hi with rfl | hi
    · exact hbn
    · exact resolveIdents_bound h.fts hv i hi
  obtain ⟨f1, f2, f3, f4⟩ := row_facts h.obj hd hb ops.undef
  have hlen := resolve_length h.fts hv
  have hle : 1 + vidx.length ≤ o.fts.len := by
    have := (List.subperm_of_subset hd (l₂ := List.range o.fts.len) (fun i hi => List.mem_range.2 (hb i hi))).length_le
    rw [List.length_cons, List.length_range] at this
    omega
  have hc : r.coo = expandData ops.nan ni vidx.length
      (o.fts.len - (1 + vidx.length) + (firstOcc ((parts o.obj (uncombined o.obj ni vidx) ni vidx ops.undef).map
        Part.nm)).length * vidx.length) (stateOf (parts o.obj (uncombined o.obj ni vidx) ni vidx ops.undef)) := by
    unfold combineByExpanding at hr
    rw [hn, hv] at hr
    dsimp only at hr
    rw [Int.toNat_natCast, if_neg (fun hc => hc.1 (List.nodup_cons.1 hd).2)] at hr
    have hloop : Obj.expandLoop ((List.range o.fts.len).filter (fun i => i ∉ ni :: vidx)) ni vidx
        (o.pts.getNames.zip o.obj.data) {} =
        (parts o.obj (uncombined o.obj ni vidx) ni vidx ops.undef).foldlM stepP {} :=
      expandLoop_eq (uncombined o.obj ni vidx) ni vidx ops.undef _ f4 {}
    rw [hloop, loop_state] at hr
    by_cases hp : ((parts o.obj (uncombined o.obj ni vidx) ni vidx ops.undef).map (fun t => (t.key, t.nm))).Nodup
    · rw [if_pos hp] at hr
      dsimp only at hr
      have hun : (stateOf (parts o.obj (uncombined o.obj ni vidx) ni vidx ops.undef)).uniqueNames =
        firstOcc ((parts o.obj (uncombined o.obj ni vidx) ni vidx ops.undef).map Part.nm) := rfl
      rw [hun] at hr
      have hnum : o.fts.len + (firstOcc ((parts o.obj (uncombined o.obj ni vidx) ni vidx ops.undef).map
          Part.nm)).length * valueIds.length - (1 + valueIds.length) = (o.fts.len - (1 + vidx.length)) +
            (firstOcc ((parts o.obj (uncombined o.obj ni vidx) ni vidx ops.undef).map Part.nm)).length
              * vidx.length := by
        rw [← hlen]
        omega
      rw [hnum, ← hlen] at hr
      split at hr
      · simp at hr
      · split at hr
        · simp at hr
        · split at hr
          · simp at hr
          · split at hr
            · simp at hr
              rw [← hr]
            · split at hr
              · simp at hr
              · simp at hr
                rw [← hr]
    · rw [if_neg hp] at hr
      simp at hr
  have htab : tableOf r.coo = expandedTable ops.nan ni vidx.length
      (parts o.obj (uncombined o.obj ni vidx) ni vidx ops.undef) := by rw [hc]; exact expand_matrix f1 f2
  refine ⟨htab, ?_⟩
  rw [htab, hc]
  unfold expandData
  rw [expandPoint_eq]

open Collapse in
/-- **C96 (how expanding stores the result).**  Every element of the result is stored explicitly, the zeros too: the
invariant of Sparse objects that only values other than zero are stored is lost as soon as the result has a zero. -/
theorem C96_combine_stored_violated (ops : CollapseOps V) {o r : SpObj V} (h : o.WF) {namesId : Ident}
    {valueIds : List Ident} {ni : Nat} {vidx : List Nat}
    (hn : o.fts.getIndex namesId = .ok (ni : Int)) (hv : resolveIdents o.fts valueIds = .ok vidx)
    (hd : (ni :: vidx).Nodup)
    (hr : combineByExpanding ops o namesId valueIds false = (r, .ok ())) :
    (∀ (i j : Nat) (v : V), r.obj.elem? i j = some v → ⟨i, j, v⟩ ∈ r.coo.ents) ∧
    (∀ (i j : Nat), r.obj.elem? i j = some 0 → ¬ r.coo.WF) := by
  obtain ⟨htab, hents⟩ := combine_coo ops h hn hv hd hr
  have hmem : ∀ (i j : Nat) (v : V), r.obj.elem? i j = some v → (⟨i, j, v⟩ : Ent V) ∈ r.coo.ents := by
    intro i j v hv
    rw [hents]
    exact mem_rowEnts.2 hv
  exact ⟨hmem, fun i j h0 hwf => hwf.nonzero _ (hmem i j 0 h0) rfl⟩

open Collapse in
/-- **C96 (expanding, values before names).**  In contrast to the other types (`C36_values_before_names_violated`), an
accepted call gives the documented table also when a feature with values stands before the feature with the names. -/
theorem C96_combine_table (ops : CollapseOps V) {o r : SpObj V} (h : o.WF) {namesId : Ident}
    {valueIds : List Ident} {ni : Nat} {vidx : List Nat}
    (hn : o.fts.getIndex namesId = .ok (ni : Int)) (hv : resolveIdents o.fts valueIds = .ok vidx)
    (hd : (ni :: vidx).Nodup) (hr : combineByExpanding ops o namesId valueIds false = (r, .ok ())) :
    r.obj.data = expandedTable ops.nan ni vidx.length (parts o.obj (uncombined o.obj ni vidx) ni vidx ops.undef) :=
  (combine_coo ops h hn hv hd hr).1

/-- **C96 (how collapsing stores the result).**  A collapsed feature without a name is named by its index: for the
first feature the cell with the index is a zero and is stored explicitly. -/
theorem C96_split_stored_violated (ops : CollapseOps V) {o : SpObj V} (h : o.WF) {ids : List Ident} {cidx : List Nat}
    (hv : resolveIdents o.fts ids = .ok cidx) (hd : cidx.Nodup) (hp : 0 < o.pts.len)
    (hz : ∀ (p : Nat), ∀ j ∈ cidx, o.obj.elem? p j ≠ some 0) (h0 : 0 ∈ cidx)
    (hn : (o.fts.getNames[0]?).join = none) (hi : ops.ofIdx 0 = 0) (fn fv : String) :
    ¬ (splitByCollapsing ops o ids fn fv).1.coo.WF := by
  have hlen := Collapse.resolved_length h.fts hv
  have hb : ∀ j ∈ cidx, j < o.coo.cols := by
    intro j hj
    rw [← h.nF]; exact resolveIdents_bound h.fts hv j hj
  have hz' : ∀ p < o.coo.rows, ∀ j ∈ cidx, o.coo.at p j ≠ 0 := by
    intro p hp j hj h0
    refine hz p j hj ?_
    rw [obj_elem? h, if_pos ⟨hp, hb j hj⟩, h0]
  obtain ⟨c1, e1, _, _, _, e5, _⟩ := split_written h.coo cidx hd hb (length_nameCellsSp ops o.fts cidx) hz'
  have hmem : (0 : V) ∈ nameCellsSp ops o.fts cidx := by
    unfold nameCellsSp
    refine List.mem_map.2 ⟨0, h0, ?_⟩
    rw [hn, hi]
  obtain ⟨e, he, hev⟩ := e5 0 hmem (by rw [← h.nP]; exact hp)
  have hgoal : ¬ c1.WF := fun hwf => hwf.nonzero e he hev
  unfold splitByCollapsing
  rw [hv]
  dsimp only
  rw [← hlen, h.nF, e1]
  dsimp only
  split
  · exact hgoal
  · split
    · exact hgoal
    · split <;> exact hgoal

/-! ## Examples -/

instance : Zero Collapse.Cell := ⟨.num 0⟩

/-- A Sparse object sorted by points. -/
def spEx2 (rows cols : Nat) (ents : List (Ent Collapse.Cell)) (ps fs : List String) : SpObj Collapse.Cell :=
  ⟨⟨rows, cols, ents, some .point, none⟩, axN ps, axN fs⟩

theorem spEx2_wf {rows cols : Nat} {ents : List (Ent Collapse.Cell)} {ps fs : List String} (hp : ps.Nodup) (hf : fs.Nodup)
    (hr : ps.length = rows) (hc : fs.length = cols) (h1 : (ents.map Ent.pos).Nodup)
    (h2 : ∀ e ∈ ents, e.row < rows ∧ e.col < cols ∧ e.val ≠ 0)
    (h3 : ents.Pairwise (fun a b => Coo.lexLe .point a b = true)) : (spEx2 rows cols ents ps fs).WF where
  coo := {
    nodup := h1
    row_lt := fun e he => (h2 e he).1
    col_lt := fun e he => (h2 e he).2.1
    nonzero := fun e he => (h2 e he).2.2
    sorted_ok := by
      intro ax hax
      cases hax
      exact h3
    indices_ok := by
      intro l hl
      cases hl }
  nP := hr
  nF := hc
  pts := axN_ok hp
  fts := axN_ok hf

/-- Points 'p', 'q' and features 'ath', '100', '200': [["w", 9, 20], ["x", 10, 21]]. -/
def full : SpObj Collapse.Cell := spEx2 2 3 [⟨0, 0, .txt "w"⟩, ⟨0, 1, .num 9⟩, ⟨0, 2, .num 20⟩, ⟨1, 0, .txt "x"⟩,
  ⟨1, 1, .num 10⟩, ⟨1, 2, .num 21⟩] ["p", "q"] ["ath", "100", "200"]

theorem full_wf : full.WF := spEx2_wf (by decide) (by decide) rfl rfl (by decide) (by decide) (by decide)

/-- The hypotheses of `C96_split_partial` are met. -/
example : resolveIdents full.fts [.str "100", .str "200"] = .ok [1, 2] ∧ [1, 2].Pairwise (· < ·) ∧
    (∀ p < full.pts.len, ∀ j < full.fts.len, full.obj.elem? p j ≠ some 0) ∧ NamedAlike full.fts [1, 2] ∧
    Collapse.KeepsCells Collapse.arrayOps full.obj (Collapse.retained full.obj [1, 2]) [1, 2] := by
  refine ⟨by decide +kernel, by decide, by decide +kernel, .inr (by decide +kernel), ⟨rfl, rfl⟩⟩

example : (splitByCollapsing Collapse.arrayOps full [.str "100", .str "200"] "dist" "time").2 = .ok () ∧
    (splitByCollapsing Collapse.arrayOps full [.str "100", .str "200"] "dist" "time").1.obj.data =
      [[.txt "w", .txt "100", .num 9], [.txt "w", .txt "200", .num 20], [.txt "x", .txt "100", .num 10],
        [.txt "x", .txt "200", .num 21]] := by decide +kernel

/-- A case of `C96_split_zero_violated`: [["w", 0, 20]]. -/
def holed : SpObj Collapse.Cell := spEx2 1 3 [⟨0, 0, .txt "w"⟩, ⟨0, 2, .num 20⟩] ["p"] ["ath", "100", "200"]

theorem holed_wf : holed.WF := spEx2_wf (by decide) (by decide) rfl rfl (by decide) (by decide) (by decide)

example : (splitByCollapsing Collapse.arrayOps holed [.str "100", .str "200"] "dist" "time").2 = .error .IndexError :=
  (C96_split_zero_violated Collapse.arrayOps holed_wf (cidx := [1, 2]) (by decide +kernel) (by decide) (p := 0) (j := 1)
    (by decide) (by decide +kernel) _ _).1

/-- A case of `C96_split_shift_violated`: [[0, 7, 9]] with the last feature collapsed becomes [[7, 0, "c", 9]]. -/
def shifted : SpObj Collapse.Cell := spEx2 1 3 [⟨0, 1, .num 7⟩, ⟨0, 2, .num 9⟩] ["p"] ["a", "b", "c"]

theorem shifted_wf : shifted.WF := spEx2_wf (by decide) (by decide) rfl rfl (by decide) (by decide) (by decide)

example : resolveIdents shifted.fts [.str "c"] = .ok [2] ∧ shifted.obj.elem? 0 0 = some 0 ∧
    shifted.obj.elem? 0 1 = some (.num 7) ∧ (∀ p < 1, ∀ j ∈ [2], shifted.obj.elem? p j ≠ some 0) ∧
    (splitByCollapsing Collapse.arrayOps shifted [.str "c"] "k" "v").1.obj.data =
      [[.num 7, .num 0, .txt "c", .num 9]] := by decide +kernel

/-- A case of `C96_split_order_violated`: [[1, 2, 3]] collapsed in the order 'c', 'a', 'b'. -/
def ordered : SpObj Collapse.Cell :=
  spEx2 1 3 [⟨0, 0, .num 1⟩, ⟨0, 1, .num 2⟩, ⟨0, 2, .num 3⟩] ["p"] ["a", "b", "c"]

theorem ordered_wf : ordered.WF := spEx2_wf (by decide) (by decide) rfl rfl (by decide) (by decide) (by decide)

example : resolveIdents ordered.fts [.str "c", .str "a", .str "b"] = .ok [2, 0, 1] ∧
    writtenFts 3 [2, 0, 1] = [1, 2, 0] ∧
    (splitByCollapsing Collapse.arrayOps ordered [.str "c", .str "a", .str "b"] "k" "v").1.obj.data =
      [[.txt "c", .num 2], [.txt "a", .num 3], [.txt "b", .num 1]] := by decide +kernel

/-- A case of the theorems about expanding: features 'ath', 'dist', 'time'. -/
def long : SpObj Collapse.Cell := spEx2 2 3 [⟨0, 0, .txt "w"⟩, ⟨0, 1, .txt "100"⟩, ⟨1, 0, .txt "w"⟩,
  ⟨1, 1, .txt "200"⟩, ⟨1, 2, .num 20⟩] ["p", "q"] ["ath", "dist", "time"]

theorem long_wf : long.WF := spEx2_wf (by decide) (by decide) rfl rfl (by decide) (by decide) (by decide)

example : (combineByExpanding Collapse.arrayOps long (.str "dist") [.str "time"]).2 = .ok () ∧
    (combineByExpanding Collapse.arrayOps long (.str "dist") [.str "time"]).1.obj.data =
      [[.txt "w", .num 0, .num 20]] ∧
    (⟨0, 1, .num 0⟩ : Ent Collapse.Cell) ∈
      (combineByExpanding Collapse.arrayOps long (.str "dist") [.str "time"]).1.coo.ents := by decide +kernel

example : long.fts.getIndex (.str "dist") = .ok (1 : Nat) ∧ resolveIdents long.fts [.str "time"] = .ok [2] ∧
    [1, 2].Nodup ∧ 1 + 1 + [2].length ≤ long.fts.len ∧ Collapse.ValueNames [.str "time"] ["time"] := by
  refine ⟨by decide +kernel, by decide +kernel, by decide, by decide, by decide, fun h => by simp at h⟩

/-- A case of `C96_combine_table` beyond `C96_combine`: the value before the names. -/
def before : SpObj Collapse.Cell := spEx2 2 3 [⟨0, 0, .num 9⟩, ⟨0, 1, .txt "w"⟩, ⟨0, 2, .txt "100"⟩, ⟨1, 0, .num 20⟩,
  ⟨1, 1, .txt "w"⟩, ⟨1, 2, .txt "200"⟩] ["p", "q"] ["time", "ath", "dist"]

example : (combineByExpanding Collapse.arrayOps before (.str "dist") [.str "time"]).2 = .ok () ∧
    (combineByExpanding Collapse.arrayOps before (.str "dist") [.str "time"]).1.obj.data =
      [[.txt "w", .num 9, .num 20]] := by decide +kernel

/-- A case of `C96_split_stored_violated`: no feature names. -/
def unnamed : SpObj Collapse.Cell := ⟨⟨1, 2, [⟨0, 0, .num 1⟩, ⟨0, 1, .num 2⟩], some .point, none⟩, ⟨1, none⟩, ⟨2, none⟩⟩

example : resolveIdents unnamed.fts [.int 0] = .ok [0] ∧ (unnamed.fts.getNames[0]?).join = none ∧
    Collapse.arrayOps.ofIdx 0 = 0 ∧
    (⟨0, 1, .num 0⟩ : Ent Collapse.Cell) ∈
      (splitByCollapsing Collapse.arrayOps unnamed [.int 0] "k" "v").1.coo.ents := by decide +kernel

end Nimble.Sp
