import Verif.Model.Sparse
import Verif.Spec
import Verif.Lemmas.Py
import Mathlib.Data.List.Sort
import Mathlib.Data.List.Nodup

/-!
# C18: the `Sparse` representation: specification, internal order, element access
-/

namespace Nimble
namespace Sp
variable {V : Type}

/-! ## Specification -/

/-- The coordinates of an entry. -/
def Ent.pos (e : Ent V) : Nat × Nat := (e.row, e.col)

/-- The element at `(i, j)` of the matrix a coordinate list stands for: the stored value, zero where
nothing is stored. -/
def Coo.at [Zero V] (c : Coo V) (i j : Nat) : V :=
  ((c.ents.find? (fun e => decide (e.pos = (i, j)))).map Ent.val).getD 0

/-- The dense table with the same elements. -/
def Coo.dense [Zero V] (c : Coo V) : List (List V) :=
  (List.range c.rows).map (fun i => (List.range c.cols).map (fun j => c.at i j))

/-- The stored entries of a proper coordinate matrix: no coordinates twice, all in range, no stored
zero. -/
structure Coo.Core [Zero V] (c : Coo V) : Prop where
  nodup : (c.ents.map Ent.pos).Nodup
  row_lt : ∀ e ∈ c.ents, e.row < c.rows
  col_lt : ∀ e ∈ c.ents, e.col < c.cols
  nonzero : ∀ e ∈ c.ents, e.val ≠ 0

/-- What `checkInvariants` demands of a `Sparse` object (sparse.py:975-1014): additionally, what is
recorded about the order is true. -/
structure Coo.WF [Zero V] (c : Coo V) : Prop extends Coo.Core c where
  sorted_ok : ∀ ax, c.sorted = some ax → c.ents.Pairwise (fun a b => Coo.lexLe ax a b = true)
  indices_ok : ∀ l, c.indices = some l → ∃ ax, c.sorted = some ax ∧
    l = (List.range (c.size ax + 1)).map (Coo.searchsorted (c.ents.map (Ent.on ax)))

namespace Coo

/-! ## Elements -/

section
variable [Zero V]

theorem at_of_mem {c : Coo V} (h : (c.ents.map Ent.pos).Nodup) {e : Ent V} (he : e ∈ c.ents) :
    c.at e.row e.col = e.val := by
  unfold Coo.at
  have hs : (c.ents.find? (fun x => decide (x.pos = (e.row, e.col)))).isSome := by
    rw [List.find?_isSome]; exact ⟨e, he, by simp [Ent.pos]⟩
  obtain ⟨x, hx⟩ := Option.isSome_iff_exists.1 hs
  have h1 := List.mem_of_find?_eq_some hx
  have h2 := List.find?_some hx
  simp only [decide_eq_true_eq] at h2
  have : x = e := List.inj_on_of_nodup_map h h1 he h2
  rw [hx, this]; rfl

theorem at_of_not {c : Coo V} {i j : Nat} (h : ∀ e ∈ c.ents, e.pos ≠ (i, j)) : c.at i j = 0 := by
  unfold Coo.at
  rw [List.find?_eq_none.2]
  · rfl
  · intro e he
    simpa using h e he

/-- Two coordinate lists with the same entry (or none) at two places have the same element there. -/
theorem at_eq {c d : Coo V} (hc : (c.ents.map Ent.pos).Nodup) (hd : (d.ents.map Ent.pos).Nodup)
    {i j i' j' : Nat}
    (h : ∀ v, (⟨i, j, v⟩ : Ent V) ∈ c.ents ↔ (⟨i', j', v⟩ : Ent V) ∈ d.ents) :
    c.at i j = d.at i' j' := by
  by_cases hx : ∃ v, (⟨i, j, v⟩ : Ent V) ∈ c.ents
  · obtain ⟨v, hv⟩ := hx
    rw [show c.at i j = v from at_of_mem hc hv, show d.at i' j' = v from at_of_mem hd ((h v).1 hv)]
  · rw [at_of_not, at_of_not]
    · rintro ⟨a, b, v⟩ he hp
      simp only [Ent.pos, Prod.mk.injEq] at hp
      obtain ⟨rfl, rfl⟩ := hp
      exact hx ⟨v, (h v).2 he⟩
    · rintro ⟨a, b, v⟩ he hp
      simp only [Ent.pos, Prod.mk.injEq] at hp
      obtain ⟨rfl, rfl⟩ := hp
      exact hx ⟨v, he⟩

theorem mem_iff_at {c : Coo V} (h : c.Core) {i j : Nat} {v : V} (hv : v ≠ 0) :
    (⟨i, j, v⟩ : Ent V) ∈ c.ents ↔ c.at i j = v := by
  constructor
  · intro hm; exact at_of_mem h.nodup hm
  · intro ha
    by_cases hx : ∃ w, (⟨i, j, w⟩ : Ent V) ∈ c.ents
    · obtain ⟨w, hw⟩ := hx
      have := at_of_mem h.nodup hw
      rw [show c.at i j = w from this] at ha
      rw [← ha]; exact hw
    · rw [at_of_not] at ha
      · exact absurd ha.symm hv
      · rintro ⟨a, b, w⟩ he hp
        simp only [Ent.pos, Prod.mk.injEq] at hp
        obtain ⟨rfl, rfl⟩ := hp
        exact hx ⟨w, he⟩

theorem at_perm {c d : Coo V} (hc : (c.ents.map Ent.pos).Nodup) (hp : d.ents.Perm c.ents) (i j : Nat) :
    d.at i j = c.at i j :=
  at_eq ((hp.map Ent.pos).nodup_iff.2 hc) hc (fun _ => hp.mem_iff)

theorem dense_congr {c d : Coo V} (hr : c.rows = d.rows) (hk : c.cols = d.cols)
    (h : ∀ i j, i < d.rows → j < d.cols → c.at i j = d.at i j) : c.dense = d.dense := by
  unfold dense
  rw [hr, hk]
  apply List.map_congr_left
  intro i hi
  apply List.map_congr_left
  intro j hj
  exact h i j (List.mem_range.1 hi) (List.mem_range.1 hj)

theorem length_dense (c : Coo V) : c.dense.length = c.rows := by simp [dense]

theorem row_dense {c : Coo V} {r : List V} (h : r ∈ c.dense) : r.length = c.cols := by
  obtain ⟨i, -, rfl⟩ := List.mem_map.1 h
  simp

theorem dense_getElem {c : Coo V} {i : Nat} (h : i < c.rows) :
    c.dense[i]? = some ((List.range c.cols).map (fun j => c.at i j)) := by
  simp [dense, h]

/-- Two tables are the same if sizes and elements are. -/
theorem dense_ext {c : Coo V} {t : List (List V)} (hl : t.length = c.rows)
    (hr : ∀ r ∈ t, r.length = c.cols)
    (h : ∀ i j, i < c.rows → j < c.cols → (t[i]?).bind (·[j]?) = some (c.at i j)) : c.dense = t := by
  apply List.ext_getElem?
  intro i
  by_cases hi : i < c.rows
  · rw [dense_getElem hi, List.getElem?_eq_getElem (by omega)]
    congr 1
    apply List.ext_getElem?
    intro j
    have hrl : (t[i]'(by omega)).length = c.cols := hr _ (List.getElem_mem _)
    by_cases hj : j < c.cols
    · have := h i j hi hj
      rw [List.getElem?_eq_getElem (by omega)] at this
      simp only [Option.bind_some] at this
      rw [this]
      simp [hj]
    · rw [List.getElem?_eq_none (by simp; omega), List.getElem?_eq_none (by omega)]
  · rw [List.getElem?_eq_none (by rw [length_dense]; omega), List.getElem?_eq_none (by omega)]

theorem at_dense (c : Coo V) {i j : Nat} (hi : i < c.rows) (hj : j < c.cols) :
    (c.dense[i]?).bind (·[j]?) = some (c.at i j) := by
  rw [dense_getElem hi]
  simp [hj]

end

/-! ## The internal order -/

theorem lexLe_trans (ax : Ax) (a b c : Ent V) (h1 : lexLe ax a b = true) (h2 : lexLe ax b c = true) :
    lexLe ax a c = true := by
  simp only [lexLe, Bool.or_eq_true, Bool.and_eq_true, decide_eq_true_eq] at *
  omega

theorem lexLe_total (ax : Ax) (a b : Ent V) : (lexLe ax a b || lexLe ax b a) = true := by
  simp only [lexLe, Bool.or_eq_true, Bool.and_eq_true, decide_eq_true_eq]
  omega

theorem resort_perm (c : Coo V) (ax : Ax) : (c.resort ax).ents.Perm c.ents :=
  List.mergeSort_perm _ _

theorem resort_sorted (c : Coo V) (ax : Ax) :
    (c.resort ax).ents.Pairwise (fun a b => lexLe ax a b = true) :=
  List.pairwise_mergeSort (lexLe_trans ax) (lexLe_total ax) _

variable [Zero V]

theorem Core.perm {c d : Coo V} (h : c.Core) (hp : d.ents.Perm c.ents) (hr : d.rows = c.rows)
    (hk : d.cols = c.cols) : d.Core where
  nodup := (hp.map Ent.pos).nodup_iff.2 h.nodup
  row_lt := fun e he => by rw [hr]; exact h.row_lt e (hp.mem_iff.1 he)
  col_lt := fun e he => by rw [hk]; exact h.col_lt e (hp.mem_iff.1 he)
  nonzero := fun e he => h.nonzero e (hp.mem_iff.1 he)

theorem resort_wf {c : Coo V} (h : c.Core) (ax : Ax) : (c.resort ax).WF where
  toCore := h.perm (resort_perm c ax) rfl rfl
  sorted_ok := by
    intro ax' hax
    cases (Option.some.inj hax)
    exact resort_sorted c ax
  indices_ok := by
    intro l hl
    cases hl

theorem withIndices_wf {c : Coo V} (h : c.WF) {ax : Ax} (hs : c.sorted = some ax) :
    (c.withIndices ax).WF where
  toCore := ⟨h.nodup, h.row_lt, h.col_lt, h.nonzero⟩
  sorted_ok := h.sorted_ok
  indices_ok := by
    intro l hl
    exact ⟨ax, hs, (Option.some.inj hl).symm⟩

/-- Everything `_sortInternal` promises. -/
structure SortedFrom (c c' : Coo V) (ax : Ax) : Prop where
  wf : c'.WF
  perm : c'.ents.Perm c.ents
  rows : c'.rows = c.rows
  cols : c'.cols = c.cols
  sorted : c'.sorted = some ax

theorem sortInternal_spec {c : Coo V} (h : c.Core) (ax : Ax) (idx force : Bool)
    (hw : force = false → c.WF) : SortedFrom c (c.sortInternal ax idx force) ax := by
  unfold sortInternal
  by_cases h1 : c.sorted = some ax ∧ force = false
  · rw [if_pos h1]
    have w := hw h1.2
    split
    · exact ⟨w, List.Perm.refl _, rfl, rfl, h1.1⟩
    · exact ⟨withIndices_wf w h1.1, List.Perm.refl _, rfl, rfl, h1.1⟩
  · rw [if_neg h1]
    split
    · exact ⟨withIndices_wf (resort_wf h ax) rfl, resort_perm c ax, rfl, rfl, rfl⟩
    · exact ⟨resort_wf h ax, resort_perm c ax, rfl, rfl, rfl⟩

theorem SortedFrom.size {c c' : Coo V} {ax : Ax} (h : SortedFrom c c' ax) (a : Ax) :
    c'.size a = c.size a := by cases a <;> simp [Coo.size, h.rows, h.cols]

theorem SortedFrom.dense {c c' : Coo V} {ax : Ax} (h : SortedFrom c c' ax)
    (hc : (c.ents.map Ent.pos).Nodup) : c'.dense = c.dense :=
  dense_congr h.rows h.cols (fun i j _ _ => at_perm hc h.perm i j)

theorem sortInternal_indices {c : Coo V} (h : c.Core) (ax : Ax) (force : Bool)
    (hw : force = false → c.WF) :
    (c.sortInternal ax true force).indices = some ((List.range ((c.sortInternal ax true force).size ax + 1)).map
      (searchsorted ((c.sortInternal ax true force).ents.map (Ent.on ax)))) := by
  have hs := sortInternal_spec h ax true force hw
  have hi : (c.sortInternal ax true force).indices.isSome := by
    unfold sortInternal
    split
    · split
      · next h2 =>
        rcases h2 with h2 | h2
        · cases h2
        · exact h2
      · rfl
    · rfl
  obtain ⟨l, hl⟩ := Option.isSome_iff_exists.1 hi
  obtain ⟨ax', h1, h2⟩ := hs.wf.indices_ok l hl
  rw [hs.sorted] at h1
  cases h1
  rw [hl, h2]

/-! ## Binary search -/

omit [Zero V] in
/-- A list sorted by a key splits into what is below, at and above a value. -/
theorem split_sorted {A : Type} (f : A → Nat) (x : Nat) (l : List A)
    (h : l.Pairwise (fun a b => f a ≤ f b)) :
    l.takeWhile (fun a => decide (f a < x)) = l.filter (fun a => decide (f a < x)) ∧
    l = l.filter (fun a => decide (f a < x)) ++ l.filter (fun a => decide (f a = x))
      ++ l.filter (fun a => decide (x < f a)) := by
  induction l with
  | nil => simp
  | cons a l ih =>
    rw [List.pairwise_cons] at h
    obtain ⟨i1, i2⟩ := ih h.2
    have hnone : ∀ y, y ≤ f a → l.filter (fun b => decide (f b < y)) = [] := by
      intro y hy
      rw [List.filter_eq_nil_iff]
      intro b hb
      have := h.1 b hb
      simp; omega
    by_cases h1 : f a < x
    · constructor
      · rw [List.takeWhile_cons_of_pos (by simpa using h1), List.filter_cons_of_pos (by simpa using h1), i1]
      · rw [List.filter_cons_of_pos (by simpa using h1), List.filter_cons_of_neg (by simp; omega),
          List.filter_cons_of_neg (by simp; omega)]
        simp only [List.cons_append]
        rw [← i2]
    · have h0 := hnone x (by omega)
      refine ⟨?_, ?_⟩
      · rw [List.takeWhile_cons_of_neg (by simpa using h1), List.filter_cons_of_neg (by simpa using h1), h0]
      · rw [List.filter_cons_of_neg (by simpa using h1), h0, List.nil_append]
        rw [h0, List.nil_append] at i2
        by_cases h2 : f a = x
        · rw [List.filter_cons_of_pos (by simpa using h2), List.filter_cons_of_neg (by simp; omega),
            List.cons_append, ← i2]
        · have : l.filter (fun b => decide (f b = x)) = [] := by
            rw [List.filter_eq_nil_iff]
            intro b hb
            have := h.1 b hb
            simp; omega
          rw [List.filter_cons_of_neg (by simpa using h2), this, List.nil_append,
            List.filter_cons_of_pos (by simp; omega)]
          rw [this, List.nil_append] at i2
          rw [← i2]

omit [Zero V] in
theorem searchsorted_map {A : Type} (f : A → Nat) (l : List A) (x : Nat) :
    searchsorted (l.map f) x = (l.takeWhile (fun a => decide (f a < x))).length := by
  unfold searchsorted
  rw [List.takeWhile_map, List.length_map]
  rfl

omit [Zero V] in
/-- The entries between two consecutive indices are those of the point or feature. -/
theorem segment_eq {A : Type} (f : A → Nat) (l : List A) (h : l.Pairwise (fun a b => f a ≤ f b)) (x : Nat) :
    (l.take (searchsorted (l.map f) (x + 1))).drop (searchsorted (l.map f) x)
      = l.filter (fun a => decide (f a = x)) ∧
    searchsorted (l.map f) (x + 1)
      = searchsorted (l.map f) x + (l.filter (fun a => decide (f a = x))).length ∧
    l.take (searchsorted (l.map f) x) = l.filter (fun a => decide (f a < x)) := by
  obtain ⟨a1, a2⟩ := split_sorted f x l h
  obtain ⟨b1, -⟩ := split_sorted f (x + 1) l h
  have e2 : l.filter (fun a => decide (f a < x + 1))
      = l.filter (fun a => decide (f a < x)) ++ l.filter (fun a => decide (f a = x)) := by
    conv_lhs => rw [a2]
    rw [List.filter_append, List.filter_append, List.filter_filter, List.filter_filter,
      List.filter_filter]
    have e3 : l.filter (fun a => decide (f a < x + 1) && decide (x < f a)) = [] := by
      rw [List.filter_eq_nil_iff]; intro a _; simp; omega
    rw [e3, List.append_nil]
    congr 1
    · apply List.filter_congr
      intro a _
      by_cases hh : f a < x
      · simp [hh]; omega
      · simp [hh]
    · apply List.filter_congr
      intro a _
      by_cases hh : f a = x
      · simp [hh]
      · simp [hh]
  have p1 : ∀ y, l.take (l.takeWhile (fun a => decide (f a < y))).length
      = l.takeWhile (fun a => decide (f a < y)) := by
    intro y
    exact (List.prefix_iff_eq_take.1 (List.takeWhile_prefix _)).symm
  rw [searchsorted_map, searchsorted_map]
  refine ⟨?_, ?_, ?_⟩
  · rw [p1, b1, e2, a1, List.drop_left]
  · rw [b1, e2, a1, List.length_append]
  · rw [p1, a1]

omit [Zero V] in
theorem on_pairwise {ax : Ax} {l : List (Ent V)} (h : l.Pairwise (fun a b => lexLe ax a b = true)) :
    l.Pairwise (fun a b => a.on ax ≤ b.on ax) := by
  refine h.imp ?_
  intro a b hab
  simp only [lexLe, Bool.or_eq_true, Bool.and_eq_true, decide_eq_true_eq] at hab
  omega

omit [Zero V] in
theorem off_pairwise {ax : Ax} {l : List (Ent V)} (h : l.Pairwise (fun a b => lexLe ax a b = true)) (x : Nat) :
    (l.filter (fun e => decide (e.on ax = x))).Pairwise (fun a b => a.on ax.off ≤ b.on ax.off) := by
  have h1 := h.sublist (List.filter_sublist (p := fun e => decide (e.on ax = x)))
  have h2 := List.Pairwise.and_mem.1 h1
  refine h2.imp ?_
  rintro a b ⟨ha, hb, hab⟩
  have ha := (List.mem_filter.1 ha).2
  have hb := (List.mem_filter.1 hb).2
  simp only [decide_eq_true_eq] at ha hb
  simp only [lexLe, Bool.or_eq_true, Bool.and_eq_true, decide_eq_true_eq] at hab
  omega

omit [Zero V] in
/-- Searching a sorted list finds an element exactly when there is one. -/
private theorem search_found {A : Type} (f : A → Nat) (l : List A)
    (h : l.Pairwise (fun a b => f a ≤ f b)) (y : Nat) :
    (∀ a, l[searchsorted (l.map f) y]? = some a → f a ≠ y → ∀ b ∈ l, f b ≠ y) ∧
    (l[searchsorted (l.map f) y]? = none → ∀ b ∈ l, f b ≠ y) := by
  obtain ⟨a1, a2⟩ := split_sorted f y l h
  have hk : searchsorted (l.map f) y = (l.filter (fun a => decide (f a < y))).length := by
    rw [searchsorted_map, a1]
  have hget : l[searchsorted (l.map f) y]? = (l.filter (fun a => decide (f a = y))
      ++ l.filter (fun a => decide (y < f a)))[0]? := by
    rw [hk]
    have := congrArg (fun t => t[(l.filter (fun a => decide (f a < y))).length]?) a2
    rw [this, List.append_assoc, List.getElem?_append_right (Nat.le_refl _), Nat.sub_self]
  have hb : ∀ b ∈ l, f b = y → b ∈ l.filter (fun a => decide (f a = y)) := by
    intro b hb hfb
    exact List.mem_filter.2 ⟨hb, by simpa using hfb⟩
  constructor
  · intro a ha hne b hbm hfb
    rw [hget] at ha
    have hbm' := hb b hbm hfb
    cases hl : l.filter (fun a => decide (f a = y)) with
    | nil => rw [hl] at hbm'; cases hbm'
    | cons z zs =>
      rw [hl] at ha
      simp only [List.cons_append, List.getElem?_cons_zero, Option.some.injEq] at ha
      have hz : z ∈ l.filter (fun a => decide (f a = y)) := by rw [hl]; simp
      have := (List.mem_filter.1 hz).2
      simp only [decide_eq_true_eq] at this
      rw [← ha] at hne
      exact hne this
  · intro hn b hbm hfb
    rw [hget] at hn
    have hbm' := hb b hbm hfb
    cases hl : l.filter (fun a => decide (f a = y)) with
    | nil => rw [hl] at hbm'; cases hbm'
    | cons z zs => rw [hl] at hn; simp at hn

/-- The pair of coordinates of an element seen from an axis. -/
private theorem pos_on (ax : Ax) (e : Ent V) (x y : Nat) :
    e.pos = (x, y) ↔ e.on ax = along ax x y ∧ e.on ax.off = along ax.off x y := by
  cases ax
  · simp [Ent.pos, Ent.on, Ax.off, along]
  · simp [Ent.pos, Ent.on, Ax.off, along, and_comm]

/-- The binary search finds the entry with the coordinates if there is one. -/
theorem locate_spec {c : Coo V} (h : c.WF) {ax : Ax} (hs : c.sorted = some ax)
    (hi : c.indices = some ((List.range (c.size ax + 1)).map (searchsorted (c.ents.map (Ent.on ax)))))
    {x y : Nat} (hx : x < c.rows) (hy : y < c.cols) :
    ∃ r, c.locate ax x y = .ok r ∧
      (∀ k, r = some k → ∃ e, c.ents[k]? = some e ∧ e.pos = (x, y)) ∧
      (r = none → ∀ e ∈ c.ents, e.pos ≠ (x, y)) := by
  have hon := on_pairwise (h.sorted_ok ax hs)
  have hoff := off_pairwise (h.sorted_ok ax hs)
  -- the two coordinates along and across
  obtain ⟨p, hp⟩ : ∃ p, p = along ax x y := ⟨_, rfl⟩
  obtain ⟨q, hq⟩ : ∃ q, q = along ax.off x y := ⟨_, rfl⟩
  have hpl : p < c.size ax := by subst hp; cases ax <;> simp [Coo.size, hx, hy, along]
  have hposn : ∀ e : Ent V, e.pos = (x, y) ↔ e.on ax = p ∧ e.on ax.off = q := by
    intro e; rw [pos_on ax, hp, hq]
  have hg : ∀ k, k ≤ c.size ax → c.indices.bind (fun l => l[k]?)
      = some (searchsorted (c.ents.map (Ent.on ax)) k) := by
    intro k hk
    rw [hi]
    simp only [Option.bind_some, List.getElem?_map, List.getElem?_range (by omega : k < c.size ax + 1)]
    rfl
  obtain ⟨s1, s2, s3⟩ := segment_eq (Ent.on ax) c.ents hon p
  unfold locate
  dsimp only
  rw [← hp, ← hq, hg p (by omega), hg (p + 1) (by omega)]
  dsimp only
  rw [s1]
  have hmemseg : ∀ e ∈ c.ents, e.pos = (x, y) → e ∈ c.ents.filter (fun a => decide (a.on ax = p)) := by
    intro e he hep
    exact List.mem_filter.2 ⟨he, by simpa using ((hposn e).1 hep).1⟩
  split
  · next heq =>
    refine ⟨none, rfl, (by intro k hk; cases hk), ?_⟩
    intro _ e he hep
    have := hmemseg e he hep
    have hz : (c.ents.filter (fun a => decide (a.on ax = p))).length = 0 := by omega
    rw [List.length_eq_zero_iff.1 hz] at this
    cases this
  · next hne =>
    have hget : ∀ k, k < (c.ents.filter (fun a => decide (a.on ax = p))).length →
        c.ents[k + searchsorted (c.ents.map (Ent.on ax)) p]?
          = (c.ents.filter (fun a => decide (a.on ax = p)))[k]? := by
      intro k hk
      rw [← s1, List.getElem?_drop, List.getElem?_take, if_pos (by omega), Nat.add_comm]
    obtain ⟨f1, f2⟩ := search_found (Ent.on ax.off) (c.ents.filter (fun a => decide (a.on ax = p))) (hoff p) q
    obtain ⟨k, hk⟩ : ∃ k, k = searchsorted ((c.ents.filter (fun a => decide (a.on ax = p))).map
      (Ent.on ax.off)) q := ⟨_, rfl⟩
    rw [← hk] at f1 f2 ⊢
    by_cases hkl : k < (c.ents.filter (fun a => decide (a.on ax = p))).length
    · rw [hget k hkl]
      obtain ⟨e, he⟩ : ∃ e, (c.ents.filter (fun a => decide (a.on ax = p)))[k]? = some e :=
        ⟨_, List.getElem?_eq_getElem hkl⟩
      rw [he]
      dsimp only
      by_cases hc : e.on ax.off = q
      · rw [if_pos ⟨by omega, hc⟩]
        refine ⟨_, rfl, ?_, by intro hh; cases hh⟩
        intro k' hk'
        cases hk'
        refine ⟨e, by rw [hget k hkl, he], ?_⟩
        have hm := (List.mem_filter.1 (List.mem_of_getElem? he)).2
        simp only [decide_eq_true_eq] at hm
        exact (hposn e).2 ⟨hm, hc⟩
      · rw [if_neg (fun hh => hc hh.2)]
        refine ⟨none, rfl, (by intro k hk; cases hk), ?_⟩
        intro _ b hb hbp
        exact f1 e he hc b (hmemseg b hb hbp) ((hposn b).1 hbp).2
    · have hnone := List.getElem?_eq_none (Nat.le_of_not_lt hkl)
      have hfin : ∀ b ∈ c.ents, b.pos ≠ (x, y) := by
        intro b hb hbp
        exact f2 hnone b (hmemseg b hb hbp) ((hposn b).1 hbp).2
      cases hcase : c.ents[k + searchsorted (c.ents.map (Ent.on ax)) p]? with
      | none => exact ⟨none, rfl, (by intro k hk; cases hk), fun _ => hfin⟩
      | some e =>
        dsimp only
        rw [if_neg (by omega)]
        exact ⟨none, rfl, (by intro k hk; cases hk), fun _ => hfin⟩

/-! ## Element access -/

/-- Reading an element gives the element of the dense table, whatever the internal order, and leaves
the table as it is. -/
theorem C18_getitem {c : Coo V} (h : c.WF) {x y : Nat} (hx : x < c.rows) (hy : y < c.cols) :
    (c.getitem x y).2 = .ok (c.at x y) ∧ (c.getitem x y).1.WF ∧
    (c.getitem x y).1.rows = c.rows ∧ (c.getitem x y).1.cols = c.cols ∧
    (c.getitem x y).1.dense = c.dense := by
  have hs := sortInternal_spec h.toCore c.accessAxis true false (fun _ => h)
  have hi := sortInternal_indices h.toCore c.accessAxis false (fun _ => h)
  obtain ⟨r, hr, r1, r2⟩ := locate_spec hs.wf hs.sorted hi (by rw [hs.rows]; exact hx)
    (by rw [hs.cols]; exact hy)
  have hat := at_perm h.nodup hs.perm x y
  have hd := hs.dense h.nodup
  unfold getitem
  dsimp only
  rw [hr]
  cases r with
  | none =>
    refine ⟨?_, hs.wf, hs.rows, hs.cols, hd⟩
    show _ = _
    rw [← hat, at_of_not (r2 rfl)]
  | some k =>
    obtain ⟨e, he, hp⟩ := r1 k rfl
    dsimp only
    rw [he]
    refine ⟨?_, hs.wf, hs.rows, hs.cols, hd⟩
    dsimp only
    rw [← hat]
    have := at_of_mem hs.wf.nodup (List.mem_of_getElem? he)
    simp only [Ent.pos, Prod.mk.injEq] at hp
    rw [hp.1, hp.2] at this
    rw [this]

end Coo
end Sp
end Nimble
