import Verif.Props.Sparse

/-!
# C18: comparing, counting, `unique`, views and histories
-/

namespace Nimble
namespace Sp
variable {V : Type}
namespace Coo
variable [Zero V]

/-! ## Canonical order -/

omit [Zero V] in
/-- Entries sorted the same way with distinct coordinates are determined by membership. -/
theorem sorted_unique {ax : Ax} {l m : List (Ent V)}
    (hl : l.Pairwise (fun a b => lexLe ax a b = true)) (hm : m.Pairwise (fun a b => lexLe ax a b = true))
    (hln : (l.map Ent.pos).Nodup) (hmn : (m.map Ent.pos).Nodup) (h : ∀ e, e ∈ l ↔ e ∈ m) : l = m := by
  have hp : l.Perm m := (List.perm_ext_iff_of_nodup hln.of_map hmn.of_map).2 h
  refine hp.eq_of_pairwise ?_ hl hm
  intro a b ha hb hab hba
  have hon : a.posA ax = b.posA ax := by
    simp only [lexLe, Bool.or_eq_true, Bool.and_eq_true, decide_eq_true_eq] at hab hba
    simp only [Ent.posA, Prod.mk.injEq]
    omega
  exact List.inj_on_of_nodup_map ((nodup_posA ax l).2 hln) ha ((h b).2 hb) hon

theorem mem_ents_iff {c : Coo V} (h : c.Core) (e : Ent V) :
    e ∈ c.ents ↔ e.val ≠ 0 ∧ c.at e.row e.col = e.val := by
  constructor
  · intro he; exact ⟨h.nonzero e he, at_of_mem h.nodup he⟩
  · rintro ⟨h1, h2⟩; exact (mem_iff_at h h1).2 h2

/-- Objects of one shape with the same elements store the same entries. -/
theorem mem_congr {c d : Coo V} (hc : c.Core) (hd : d.Core) (hr : c.rows = d.rows) (hk : c.cols = d.cols)
    (h : c.dense = d.dense) (e : Ent V) : e ∈ c.ents ↔ e ∈ d.ents := by
  have key : ∀ {c d : Coo V}, c.Core → d.Core → c.rows = d.rows → c.cols = d.cols →
      c.dense = d.dense → ∀ e ∈ c.ents, e ∈ d.ents := by
    intro c d hc hd hr hk h e he
    have h1 := hc.row_lt e he
    have h2 := hc.col_lt e he
    have h3 := at_dense c h1 h2
    rw [h, at_dense d (by omega) (by omega), at_of_mem hc.nodup he] at h3
    exact (mem_iff_at hd (hc.nonzero e he)).2 (Option.some.inj h3)
  exact ⟨key hc hd hr hk h e, key hd hc hr.symm hk.symm h.symm e⟩

/-- `isIdentical` of two Sparse objects compares their tables, whatever the two internal orders; it
leaves both objects as they are. -/
theorem C18_isIdentical [DecidableEq V] {c d : Coo V} (hc : c.WF) (hd : d.WF) :
    ((c.isIdentical d).2.2 = true ↔ c.rows = d.rows ∧ c.cols = d.cols ∧ c.dense = d.dense) ∧
    (c.isIdentical d).1.WF ∧ (c.isIdentical d).2.1.WF ∧
    (c.isIdentical d).1.dense = c.dense ∧ (c.isIdentical d).2.1.dense = d.dense := by
  unfold isIdentical
  split
  · next h1 =>
    refine ⟨?_, hc, hd, rfl, rfl⟩
    constructor
    · intro h; cases h
    · rintro ⟨a, b, -⟩
      rcases h1 with h1 | h1
      · exact absurd a h1
      · exact absurd b h1
  · next h1 =>
    simp only [ne_eq, not_or, not_not] at h1
    split
    · next h2 =>
      refine ⟨?_, hc, hd, rfl, rfl⟩
      constructor
      · intro h; cases h
      · rintro ⟨a, b, e⟩
        apply absurd _ h2
        exact ((List.perm_ext_iff_of_nodup hc.nodup.of_map hd.nodup.of_map).2
          (mem_congr hc.toCore hd.toCore a b e)).length_eq
    · next h2 =>
      dsimp only
      obtain ⟨ax, hax⟩ : ∃ ax, ax = c.sorted.getD .feature := ⟨_, rfl⟩
      rw [← hax]
      have s1 : SortedFrom c (if c.sorted.isNone then c.sortInternal .feature false else c) ax := by
        cases hs : c.sorted with
        | none =>
          rw [hs] at hax
          subst hax
          exact sortInternal_spec hc.toCore .feature false false (fun _ => hc)
        | some a =>
          rw [hs] at hax
          simp only [Option.isNone_some, Bool.false_eq_true, if_false]
          subst hax
          exact ⟨hc, List.Perm.refl _, rfl, rfl, hs⟩
      have s2 : SortedFrom d (if d.sorted = some ax then d else d.sortInternal ax false) ax := by
        split
        · next hh => exact ⟨hd, List.Perm.refl _, rfl, rfl, hh⟩
        · exact sortInternal_spec hd.toCore ax false false (fun _ => hd)
      generalize (if c.sorted.isNone then c.sortInternal .feature false else c) = c1 at s1
      generalize (if d.sorted = some ax then d else d.sortInternal ax false) = d1 at s2
      refine ⟨?_, s1.wf, s2.wf, s1.dense hc.nodup, s2.dense hd.nodup⟩
      rw [decide_eq_true_eq]
      constructor
      · intro h
        refine ⟨h1.1, h1.2, ?_⟩
        rw [← s1.dense hc.nodup, ← s2.dense hd.nodup]
        refine dense_congr (by rw [s1.rows, s2.rows, h1.1]) (by rw [s1.cols, s2.cols, h1.2]) ?_
        intro i j _ _
        unfold Coo.at
        rw [h]
      · rintro ⟨a, b, e⟩
        refine sorted_unique (s1.wf.sorted_ok ax s1.sorted) (s2.wf.sorted_ok ax s2.sorted)
          s1.wf.nodup s2.wf.nodup ?_
        intro x
        rw [s1.perm.mem_iff, s2.perm.mem_iff]
        exact mem_congr hc.toCore hd.toCore a b e x

/-! ## Counting -/

/-- The stored entries are the non-zero elements. -/
theorem stored_perm [DecidableEq V] {c : Coo V} (h : c.Core) :
    (c.ents.map Ent.pos).Perm
      ((List.range c.rows ×ˢ List.range c.cols).filter (fun p => decide (c.at p.1 p.2 ≠ 0))) := by
  refine (List.perm_ext_iff_of_nodup h.nodup ?_).2 ?_
  · exact (List.nodup_range.product List.nodup_range).filter _
  · rintro ⟨i, j⟩
    simp only [List.mem_filter, decide_eq_true_eq, List.mem_map]
    rw [List.mem_product, List.mem_range, List.mem_range]
    constructor
    · rintro ⟨e, he, hp⟩
      simp only [Ent.pos, Prod.mk.injEq] at hp
      obtain ⟨rfl, rfl⟩ := hp
      refine ⟨⟨h.row_lt e he, h.col_lt e he⟩, ?_⟩
      rw [at_of_mem h.nodup he]
      exact h.nonzero e he
    · rintro ⟨-, hne⟩
      exact ⟨⟨i, j, c.at i j⟩, (mem_iff_at h hne).2 rfl, rfl⟩

theorem flatten_dense (c : Coo V) :
    c.dense.flatten = (List.range c.rows ×ˢ List.range c.cols).map (fun p => c.at p.1 p.2) := by
  show _ = (List.product (List.range c.rows) (List.range c.cols)).map _
  unfold dense List.product
  rw [List.map_flatMap, List.flatMap_def]
  congr 1
  apply List.map_congr_left
  intro i _
  rw [List.map_map]
  rfl

/-- The number of zeros reported by `countUniqueElements` is the number of zero elements. -/
theorem C18_zeroCount [DecidableEq V] {c : Coo V} (h : c.WF) :
    c.zeroCount = c.dense.flatten.count 0 := by
  have hp := (stored_perm h.toCore).length_eq
  rw [List.length_map] at hp
  rw [flatten_dense, List.count, List.countP_map]
  have hl := List.length_eq_countP_add_countP (fun p => decide (c.at p.1 p.2 ≠ 0))
    (l := List.range c.rows ×ˢ List.range c.cols)
  rw [List.length_product, List.length_range, List.length_range, List.countP_eq_length_filter, ← hp] at hl
  unfold zeroCount
  have hc : List.countP (fun a : Nat × Nat => decide (¬decide (c.at a.1 a.2 ≠ 0) = true))
      (List.range c.rows ×ˢ List.range c.cols)
      = List.countP ((fun x => x == 0) ∘ fun p : Nat × Nat => c.at p.1 p.2)
      (List.range c.rows ×ˢ List.range c.cols) := by
    apply List.countP_congr
    intro p _
    simp
  rw [hc] at hl
  omega

/-- `containsZero` (the test behind several fast paths): there is a zero element. -/
theorem C18_containsZero [DecidableEq V] {c : Coo V} (h : c.WF) :
    c.containsZero = true ↔ ∃ r ∈ c.dense, (0 : V) ∈ r := by
  have hz := C18_zeroCount h
  unfold containsZero
  unfold zeroCount at hz
  rw [decide_eq_true_eq]
  have : c.rows * c.cols > c.ents.length ↔ 0 < c.dense.flatten.count 0 := by omega
  rw [this, List.count_pos_iff, List.mem_flatten]

/-! ## unique -/

/-- What `unique` compares: the entries of one vector. -/
def key (ax : Ax) (ents : List (Ent V)) (i : Nat) : List (V × Nat) :=
  (ents.filter (fun e => decide (e.on ax = i))).map (fun e => (e.val, e.on ax.off))

theorem mem_iff_atA {c : Coo V} (h : c.Core) (ax : Ax) {p o : Nat} {v : V} (hv : v ≠ 0) :
    Ent.mkOn ax p o v ∈ c.ents ↔ c.atA ax p o = v := by
  cases ax
  · exact mem_iff_at h hv
  · exact mem_iff_at h hv

theorem key_eq_iff {c : Coo V} (h : c.WF) {ax : Ax} (hs : c.sorted = some ax) {i j : Nat} :
    key ax c.ents i = key ax c.ents j ↔
      (List.range (c.size ax.off)).map (c.atA ax i) = (List.range (c.size ax.off)).map (c.atA ax j) := by
  have hmem : ∀ i v o, (v, o) ∈ key ax c.ents i ↔ Ent.mkOn ax i o v ∈ c.ents := by
    intro i v o
    unfold key
    simp only [List.mem_map, List.mem_filter, decide_eq_true_eq, Prod.mk.injEq]
    constructor
    · rintro ⟨e, ⟨he, hon⟩, rfl, rfl⟩
      rw [← hon, mkOn_on]; exact he
    · intro he
      exact ⟨_, ⟨he, on_mkOn ..⟩, val_mkOn .., off_mkOn ..⟩
  have hcore := (core_iff ax c).1 h.toCore
  constructor
  · intro heq
    apply List.map_congr_left
    intro o _
    refine atA_eq ax h.nodup h.nodup (fun v => ?_)
    rw [← hmem, ← hmem, heq]
  · intro heq
    have hat : ∀ o, o < c.size ax.off → c.atA ax i o = c.atA ax j o := by
      intro o ho
      exact List.map_inj_left.1 heq o (List.mem_range.2 ho)
    have hmm : ∀ x, x ∈ key ax c.ents i ↔ x ∈ key ax c.ents j := by
      rintro ⟨v, o⟩
      rw [hmem, hmem]
      constructor
      · intro hm
        obtain ⟨-, h2, h3⟩ := hcore.2 _ hm
        rw [off_mkOn] at h2
        rw [val_mkOn] at h3
        rw [mem_iff_atA h.toCore ax h3] at hm ⊢
        rw [← hat o h2]; exact hm
      · intro hm
        obtain ⟨-, h2, h3⟩ := hcore.2 _ hm
        rw [off_mkOn] at h2
        rw [val_mkOn] at h3
        rw [mem_iff_atA h.toCore ax h3] at hm ⊢
        rw [hat o h2]; exact hm
    have hsort : ∀ i, (key ax c.ents i).Pairwise (fun a b => a.2 < b.2) := by
      intro i
      unfold key
      rw [List.pairwise_map]
      have h1 := off_pairwise (h.sorted_ok ax hs) i
      have h2 : (c.ents.filter (fun e => decide (e.on ax = i))).Pairwise
          (fun a b => a.posA ax ≠ b.posA ax) :=
        (List.pairwise_map.1 hcore.1).sublist List.filter_sublist
      have h3 := List.Pairwise.and_mem.1 (h1.and h2)
      refine h3.imp ?_
      rintro a b ⟨ha, hb, hle, hne⟩
      have ha := (List.mem_filter.1 ha).2
      have hb := (List.mem_filter.1 hb).2
      simp only [decide_eq_true_eq] at ha hb
      simp only [Ent.posA, ne_eq, Prod.mk.injEq, not_and] at hne
      have := hne (by rw [ha, hb])
      omega
    have hnd : ∀ i, (key ax c.ents i).Nodup := by
      intro i
      refine (hsort i).imp ?_
      rintro a b hab rfl
      omega
    refine ((List.perm_ext_iff_of_nodup (hnd i) (hnd j)).2 hmm).eq_of_pairwise ?_ (hsort i) (hsort j)
    intro a b _ _ h1 h2
    omega

theorem uniqueIdx_eq [DecidableEq V] {c : Coo V} (h : c.WF) {ax : Ax} (hs : c.sorted = some ax)
    (n k : Nat) (seenI : List Nat) :
    uniqueIdx ax c.ents (List.range' k n) (seenI.map (key ax c.ents))
      = uniqueLoop ((List.range' k n).map (fun i => (List.range (c.size ax.off)).map (c.atA ax i))) k
        (seenI.map (fun i => (List.range (c.size ax.off)).map (c.atA ax i))) := by
  induction n generalizing k seenI with
  | zero => simp [uniqueIdx, uniqueLoop]
  | succ n ih =>
    rw [List.range'_succ, List.map_cons, uniqueIdx, uniqueLoop]
    have hk : (c.ents.filter (fun e => decide (e.on ax = k))).map (fun e => (e.val, e.on ax.off))
        = key ax c.ents k := rfl
    rw [hk]
    have hiff : key ax c.ents k ∈ seenI.map (key ax c.ents) ↔
        (List.range (c.size ax.off)).map (c.atA ax k)
          ∈ seenI.map (fun i => (List.range (c.size ax.off)).map (c.atA ax i)) := by
      simp only [List.mem_map]
      constructor
      · rintro ⟨i, hi, he⟩; exact ⟨i, hi, (key_eq_iff h hs).1 he⟩
      · rintro ⟨i, hi, he⟩; exact ⟨i, hi, (key_eq_iff h hs).2 he⟩
    by_cases hc : key ax c.ents k ∈ seenI.map (key ax c.ents)
    · rw [if_pos hc, if_pos (hiff.1 hc)]
      exact ih (k + 1) seenI
    · rw [if_neg hc, if_neg (fun hh => hc (hiff.2 hh))]
      congr 1
      exact ih (k + 1) (k :: seenI)

omit [Zero V] in
theorem uniqueIdx_mem [DecidableEq V] (ax : Ax) (ents : List (Ent V)) (l : List Nat)
    (seen : List (List (V × Nat))) : ∀ i ∈ uniqueIdx ax ents l seen, i ∈ l := by
  induction l generalizing seen with
  | nil => simp [uniqueIdx]
  | cons a l ih =>
    intro i hi
    rw [uniqueIdx] at hi
    split at hi
    · exact List.mem_cons_of_mem _ (ih _ i hi)
    · rcases List.mem_cons.1 hi with h | h
      · rw [h]; exact List.mem_cons_self
      · exact List.mem_cons_of_mem _ (ih _ i h)

/-- The vectors of a table along an axis. -/
def vectors (ax : Ax) (n : Nat) (t : List (List V)) : List (List V) :=
  match ax with
  | .point => t
  | .feature => (List.range n).map (fun j => t.filterMap (·[j]?))

theorem vectors_dense (c : Coo V) (ax : Ax) :
    vectors ax (c.size ax) c.dense
      = (List.range (c.size ax)).map (fun i => (List.range (c.size ax.off)).map (c.atA ax i)) := by
  cases ax
  · rfl
  · unfold vectors
    dsimp only
    apply List.map_congr_left
    intro j hj
    have hj : j < c.cols := List.mem_range.1 hj
    unfold dense
    rw [List.filterMap_map, ← List.filterMap_eq_map]
    apply List.filterMap_congr
    intro i _
    simp [hj, atA]

/-- `unique` keeps the vectors the dense implementation keeps: the first of each kind, in order. -/
theorem C18_unique [DecidableEq V] {c : Coo V} (h : c.WF) (ax : Ax) :
    (c.unique ax).WF ∧
    (c.unique ax).dense
      = Obj.selData ax c.dense (uniqueLoop (vectors ax (c.size ax) c.dense) 0 []) := by
  have hs := sortInternal_spec h.toCore ax false false (fun _ => h)
  unfold unique
  dsimp only
  obtain ⟨c1, hc1⟩ : ∃ c1, c1 = c.sortInternal ax false := ⟨_, rfl⟩
  rw [← hc1] at hs ⊢
  have hlt : ∀ i ∈ uniqueIdx ax c1.ents (List.range (c1.size ax)) [], i < c1.size ax :=
    fun i hi => List.mem_range.1 (uniqueIdx_mem ax c1.ents _ _ i hi)
  obtain ⟨w, -, -, hd⟩ := C18_select hs.wf ax hlt
  refine ⟨w, ?_⟩
  rw [hd, hs.dense h.nodup]
  congr 1
  rw [← hs.dense h.nodup, ← hs.size ax, vectors_dense, List.range_eq_range']
  have := uniqueIdx_eq hs.wf hs.sorted (c1.size ax) 0 []
  simpa using this

/-! ## Element-wise operations that keep zeros -/

theorem at_mapVals [DecidableEq V] {c d : Coo V} (hc : c.Core) (f : V → V) (hf : f 0 = 0)
    (he : d.ents = (c.ents.map (fun e => ({ e with val := f e.val } : Ent V))).filter
      (fun e => decide (e.val ≠ 0))) (hr : d.rows = c.rows) (hk : d.cols = c.cols) :
    d.Core ∧ ∀ i j, d.at i j = f (c.at i j) := by
  have hmem : ∀ e : Ent V, e ∈ d.ents ↔ e.val ≠ 0 ∧ ∃ v, (⟨e.row, e.col, v⟩ : Ent V) ∈ c.ents ∧ f v = e.val := by
    intro e
    rw [he, List.mem_filter, List.mem_map, decide_eq_true_eq]
    constructor
    · rintro ⟨⟨e', h1, rfl⟩, h2⟩
      exact ⟨h2, e'.val, h1, rfl⟩
    · rintro ⟨h2, v, h1, h3⟩
      refine ⟨⟨_, h1, ?_⟩, h2⟩
      cases e
      simp only at h3
      simp [h3]
  have hnd : (d.ents.map Ent.pos).Nodup := by
    rw [he]
    have : ((c.ents.map (fun e => ({ e with val := f e.val } : Ent V))).map Ent.pos).Nodup := by
      rw [List.map_map]
      exact hc.nodup
    exact this.sublist (List.filter_sublist.map _)
  refine ⟨⟨hnd, ?_, ?_, fun e h => ((hmem e).1 h).1⟩, ?_⟩
  · intro e h
    obtain ⟨-, v, h1, -⟩ := (hmem e).1 h
    have := hc.row_lt _ h1; rw [hr]; exact this
  · intro e h
    obtain ⟨-, v, h1, -⟩ := (hmem e).1 h
    have := hc.col_lt _ h1; rw [hk]; exact this
  · intro i j
    by_cases hz : f (c.at i j) = 0
    · rw [hz, at_of_not]
      intro e h hp
      obtain ⟨h1, v, h2, h3⟩ := (hmem e).1 h
      have := at_of_mem hc.nodup h2
      simp only [Ent.pos, Prod.mk.injEq] at hp
      simp only [hp.1, hp.2] at this
      rw [this, h3] at hz
      exact h1 hz
    · have hne : c.at i j ≠ 0 := by intro hh; rw [hh, hf] at hz; exact hz rfl
      have : (⟨i, j, f (c.at i j)⟩ : Ent V) ∈ d.ents :=
        (hmem _).2 ⟨hz, c.at i j, (mem_iff_at hc hne).2 rfl, rfl⟩
      exact at_of_mem (e := ⟨i, j, f (c.at i j)⟩) hnd this

/-- Scalar operations computed on the stored values only (`sparse * 3`, `sparse / 2`, `sparse % 2`, …)
are the operation on every element, provided the operation maps zero to zero. -/
theorem C18_scalarStored [DecidableEq V] {c : Coo V} (h : c.WF) (f : V → V) (hf : f 0 = 0) :
    (c.scalarStored f).WF ∧ (c.scalarStored f).rows = c.rows ∧ (c.scalarStored f).cols = c.cols ∧
    (c.scalarStored f).dense = c.dense.map (List.map f) := by
  obtain ⟨h1, h2⟩ := at_mapVals (d := c.scalarStored f) h.toCore f hf rfl rfl rfl
  refine ⟨h1.wf rfl rfl, rfl, rfl, ?_⟩
  unfold dense
  simp only [List.map_map]
  show (List.range c.rows).map _ = _
  apply List.map_congr_left
  intro i _
  show (List.range c.cols).map _ = _
  simp only [Function.comp, List.map_map]
  apply List.map_congr_left
  intro j _
  exact h2 i j

/-- `transformElements(f, preserveZeros=True)`: the elements are right afterwards; what the object
records about its internal order is not kept up to date (see `C18_transform_stale_violated`). -/
theorem C18_transformStored_partial [DecidableEq V] {c : Coo V} (h : c.WF) (f : V → V) (hf : f 0 = 0) :
    (c.transformStored f).Core ∧ (c.transformStored f).dense = c.dense.map (List.map f) := by
  obtain ⟨h1, h2⟩ := at_mapVals (d := c.transformStored f) h.toCore f hf rfl rfl rfl
  refine ⟨h1, ?_⟩
  unfold dense
  simp only [List.map_map]
  show (List.range c.rows).map _ = _
  apply List.map_congr_left
  intro i _
  show (List.range c.cols).map _ = _
  simp only [Function.comp, List.map_map]
  apply List.map_congr_left
  intro j _
  exact h2 i j

end Coo
end Sp
end Nimble
