import Verif.Model.EncodeSparse
import Verif.Props.Encode
import Verif.Props.SparseCore

/-!
# C33: the one-hot encoding of a feature of a Sparse object
-/

namespace Nimble
namespace Sp
variable {V : Type} [DecidableEq V]

theorem keys_map_unit (l : List V) : PyDict.keys (l.map (fun v => (v, ()))) = l := by
  simp [PyDict.keys, List.map_map, Function.comp_def]

/-- The keys of a column: its distinct elements. -/
theorem sparseKeys_spec [Zero V] (E : EncOps V) (hz : E.zero = 0) {c : Coo V} (h : c.WF) (hc : c.cols = 1) :
    (sparseKeys E c).Nodup ∧ ∀ v, v ∈ sparseKeys E c ↔ ∃ i, i < c.rows ∧ c.at i 0 = v := by
  obtain ⟨hu1, hu2⟩ := uniqueKeys_spec E (c.ents.map Ent.val)
  have hstored : ∀ v, v ∈ c.ents.map Ent.val ↔ v ≠ 0 ∧ ∃ i, i < c.rows ∧ c.at i 0 = v := by
    intro v
    constructor
    · intro hv
      obtain ⟨e, he, rfl⟩ := List.mem_map.1 hv
      have hcol : e.col = 0 := by have := h.col_lt e he; omega
      refine ⟨h.nonzero e he, e.row, h.row_lt e he, ?_⟩
      have := Coo.at_of_mem h.nodup he
      rw [hcol] at this; exact this
    · rintro ⟨hv, i, hi, ha⟩
      exact List.mem_map.2 ⟨_, (Coo.mem_iff_at h.toCore hv).2 ha, rfl⟩
  have hrows : ∀ e ∈ c.ents, e.col = 0 := fun e he => by have := h.col_lt e he; omega
  have hrn : (c.ents.map Ent.row).Nodup := by
    have h1 := h.nodup
    have : c.ents.map Ent.pos = (c.ents.map Ent.row).map (fun r => (r, 0)) := by
      rw [List.map_map]
      apply List.map_congr_left
      intro e he
      simp [Ent.pos, hrows e he]
    rw [this] at h1
    exact List.Nodup.of_map _ h1
  have hzero : (∃ i, i < c.rows ∧ c.at i 0 = 0) ↔ 0 < c.rows * c.cols - c.ents.length := by
    rw [hc, Nat.mul_one]
    constructor
    · rintro ⟨i, hi, ha⟩
      have hni : i ∉ c.ents.map Ent.row := by
        intro hm
        obtain ⟨e, he, rfl⟩ := List.mem_map.1 hm
        have := Coo.at_of_mem h.nodup he
        rw [hrows e he, ha] at this
        exact h.nonzero e he this.symm
      have hsub : (i :: c.ents.map Ent.row).Nodup := List.nodup_cons.2 ⟨hni, hrn⟩
      have hss : (i :: c.ents.map Ent.row) ⊆ List.range c.rows := by
        intro x hx
        rcases List.mem_cons.1 hx with rfl | hx
        · exact List.mem_range.2 hi
        · obtain ⟨e, he, rfl⟩ := List.mem_map.1 hx
          exact List.mem_range.2 (h.row_lt e he)
      have := (List.subperm_of_subset hsub hss).length_le
      simp only [List.length_range, List.length_map, List.length_cons] at this
      omega
    · intro hlt
      by_contra hno
      have hall : List.range c.rows ⊆ c.ents.map Ent.row := by
        intro i hi
        have hi' := List.mem_range.1 hi
        by_contra hni
        apply hno
        refine ⟨i, hi', Coo.at_of_not ?_⟩
        intro e he hp
        simp only [Ent.pos, Prod.mk.injEq] at hp
        exact hni (List.mem_map.2 ⟨e, he, hp.1⟩)
      have := (List.subperm_of_subset List.nodup_range hall).length_le
      simp only [List.length_range, List.length_map] at this
      omega
  unfold sparseKeys
  by_cases hlt : 0 < c.rows * c.cols - c.ents.length
  · rw [if_pos hlt, hz]
    have hk : (0 : V) ∉ PyDict.keys ((uniqueKeys E (c.ents.map Ent.val)).map (fun v => (v, ()))) := by
      rw [keys_map_unit, hu2, hstored]
      exact fun hc => hc.1 rfl
    have hset : PyDict.keys (PyDict.set ((uniqueKeys E (c.ents.map Ent.val)).map (fun v => (v, ()))) 0 ()) =
        uniqueKeys E (c.ents.map Ent.val) ++ [0] := by
      rw [PyDict.set_of_not_mem hk]
      simp [PyDict.keys, List.map_map, Function.comp_def]
    rw [hset]
    rw [keys_map_unit] at hk
    refine ⟨List.nodup_append.2 ⟨hu1, by simp, by rintro a ha b hb rfl; simp at hb; subst hb; exact hk ha⟩, ?_⟩
    intro v
    rw [List.mem_append, hu2, hstored]
    constructor
    · rintro (⟨-, h2⟩ | h2)
      · exact h2
      · simp at h2; subst h2; exact hzero.2 hlt
    · intro hx
      by_cases hv : v = 0
      · exact .inr (by simp [hv])
      · exact .inl ⟨hv, hx⟩
  · rw [if_neg hlt]
    refine ⟨hu1, ?_⟩
    intro v
    rw [hu2, hstored]
    constructor
    · exact fun h2 => h2.2
    · rintro ⟨i, hi, ha⟩
      refine ⟨?_, i, hi, ha⟩
      rintro rfl
      exact hlt (hzero.1 ⟨i, hi, ha⟩)

/-- The encoding when all values are keys. -/
def hotCoo (E : EncOps V) (uniq : List V) (c : Coo V) : Coo V :=
  { rows := c.rows, cols := uniq.length, ents := c.ents.map (fun e => ⟨e.row, uniq.idxOf e.val, E.one⟩) }

theorem mapM_hot (E : EncOps V) {uniq : List V} {l : List (Ent V)} (h : ∀ e ∈ l, e.val ∈ uniq) :
    l.mapM (hotEnt E uniq) = .ok (l.map (fun e => ⟨e.row, uniq.idxOf e.val, E.one⟩)) := by
  induction l with
  | nil => rfl
  | cons e l ih =>
    have h1 : hotEnt E uniq e = .ok ⟨e.row, uniq.idxOf e.val, E.one⟩ := by
      unfold hotEnt; rw [if_pos (h e (by simp))]
    rw [List.mapM_cons, h1, ih (fun x hx => h x (by simp [hx]))]
    rfl

/-- **C33** (Sparse, element by element): the encoding of a feature of a Sparse object never fails; the new features are
its distinct elements; the element of point `i` in the new feature for the value `v` is one exactly if the point holds
`v` *and `v` is not zero*.  So the new feature for zero, if there is one, holds only zeros
(`C33_sparse_zero_violated`). -/
theorem C33_sparse_elements [Zero V] (E : EncOps V) (hz : E.zero = 0) (ho : E.one ≠ 0) {c : Coo V} (h : c.WF)
    (hc : c.cols = 1) :
    ∃ uniq r, spEncode E c = .ok (uniq, r) ∧ uniq.Nodup ∧ (∀ v, v ∈ uniq ↔ ∃ i, i < c.rows ∧ c.at i 0 = v) ∧
      r.WF ∧ r.rows = c.rows ∧ r.cols = uniq.length ∧
      ∀ (i k : Nat) (v : V), i < c.rows → uniq[k]? = some v →
        r.at i k = if c.at i 0 = v ∧ v ≠ 0 then E.one else 0 := by
  obtain ⟨h1, h2⟩ := sparseKeys_spec E hz h hc
  have hrows : ∀ e ∈ c.ents, e.col = 0 := fun e he => by have := h.col_lt e he; omega
  have hat : ∀ e ∈ c.ents, c.at e.row 0 = e.val := by
    intro e he
    have := Coo.at_of_mem h.nodup he
    rw [hrows e he] at this; exact this
  have hmem : ∀ e ∈ c.ents, e.val ∈ sparseKeys E c := by
    intro e he
    exact (h2 _).2 ⟨e.row, h.row_lt e he, hat e he⟩
  have hrn : (c.ents.map Ent.row).Nodup := by
    have h1 := h.nodup
    have : c.ents.map Ent.pos = (c.ents.map Ent.row).map (fun r => (r, 0)) := by
      rw [List.map_map]
      apply List.map_congr_left
      intro e he
      simp [Ent.pos, hrows e he]
    rw [this] at h1
    exact List.Nodup.of_map _ h1
  have hnd : ((c.ents.map (fun e => (⟨e.row, (sparseKeys E c).idxOf e.val, E.one⟩ : Ent V))).map Ent.pos).Nodup := by
    apply List.Nodup.of_map Prod.fst
    rw [List.map_map, List.map_map]
    exact hrn
  refine ⟨sparseKeys E c, hotCoo E (sparseKeys E c) c, ?_, h1, h2,
    ⟨⟨hnd, ?_, ?_, ?_⟩, ?_, ?_⟩, rfl, rfl, ?_⟩
  · unfold spEncode spBinary
    rw [mapM_hot E hmem]
    rfl
  · intro e he
    obtain ⟨e0, he0, rfl⟩ := List.mem_map.1 he
    exact h.row_lt e0 he0
  · intro e he
    obtain ⟨e0, he0, rfl⟩ := List.mem_map.1 he
    exact List.idxOf_lt_length_of_mem (hmem e0 he0)
  · intro e he
    obtain ⟨e0, he0, rfl⟩ := List.mem_map.1 he
    exact ho
  · intro ax hs; simp [hotCoo] at hs
  · intro l hs; simp [hotCoo] at hs
  · intro i k v hi hk
    by_cases hv : c.at i 0 = v ∧ v ≠ 0
    · rw [if_pos hv]
      have hm : (⟨i, 0, v⟩ : Ent V) ∈ c.ents := (Coo.mem_iff_at h.toCore hv.2).2 hv.1
      have hkk : (sparseKeys E c).idxOf v = k := by
        obtain ⟨hkl, hkv⟩ := List.getElem?_eq_some_iff.1 hk
        rw [← hkv]
        exact h1.idxOf_getElem k hkl
      have := Coo.at_of_mem (c := hotCoo E (sparseKeys E c) c) hnd
        (List.mem_map.2 ⟨_, hm, rfl⟩)
      dsimp only at this
      rw [hkk] at this
      exact this
    · rw [if_neg hv]
      apply Coo.at_of_not
      intro e he hp
      obtain ⟨e0, he0, rfl⟩ := List.mem_map.1 he
      simp only [Ent.pos, Prod.mk.injEq] at hp
      obtain ⟨rfl, hp2⟩ := hp
      have hkv : (sparseKeys E c)[(sparseKeys E c).idxOf e0.val]? = some e0.val := by
        rw [List.getElem?_eq_getElem (List.idxOf_lt_length_of_mem (hmem e0 he0)), List.getElem_idxOf]
      rw [hp2, hk] at hkv
      cases hkv
      exact hv ⟨hat e0 he0, h.nonzero e0 he0⟩

/-- **C33** (Sparse): a feature of a Sparse object without zeros is replaced by its one-hot encoding: every point has
one in exactly the new feature of its element.

Missing: features holding a zero (`C33_sparse_zero_violated`). -/
theorem C33_sparse_partial [Zero V] (E : EncOps V) (hz : E.zero = 0) (ho : E.one ≠ 0) {c : Coo V} (h : c.WF)
    (hc : c.cols = 1) (hnz : ∀ i, i < c.rows → c.at i 0 ≠ 0) :
    ∃ uniq r, spEncode E c = .ok (uniq, r) ∧ uniq.Nodup ∧ (∀ v, v ∈ uniq ↔ ∃ i, i < c.rows ∧ c.at i 0 = v) ∧
      r.rows = c.rows ∧ r.cols = uniq.length ∧
      ∀ (i k : Nat) (v : V), i < c.rows → uniq[k]? = some v → r.at i k = if c.at i 0 = v then E.one else 0 := by
  obtain ⟨uniq, r, e1, e2, e3, -, e5, e6, e7⟩ := C33_sparse_elements E hz ho h hc
  refine ⟨uniq, r, e1, e2, e3, e5, e6, ?_⟩
  intro i k v hi hk
  rw [e7 i k v hi hk]
  by_cases hv : c.at i 0 = v
  · rw [if_pos ⟨hv, by rw [← hv]; exact hnz i hi⟩, if_pos hv]
  · rw [if_neg (fun hc => hv hc.1), if_neg hv]

/-- A feature holding 5, 0 and 7. -/
def hotEx : Coo Nat := { rows := 3, cols := 1, ents := [⟨0, 0, 5⟩, ⟨2, 0, 7⟩] }

/-- The elements compared as they come. -/
def hotOps : EncOps Nat := ⟨0, 1, Nat.repr, fun _ => false, fun a b => decide (a ≤ b)⟩

theorem hotEx_WF : hotEx.WF :=
  ⟨⟨by decide, by decide, by decide, by decide⟩, by intro ax h; simp [hotEx] at h, by intro l h; simp [hotEx] at h⟩

/-- The hypotheses of `C33_sparse_partial` are met: a feature holding 5, 7 and 5. -/
example : (spEncode hotOps { rows := 3, cols := 1, ents := [⟨0, 0, 5⟩, ⟨1, 0, 7⟩, ⟨2, 0, 5⟩] }).map
    (fun p => (p.1, p.2.dense)) = .ok ([5, 7], [[1, 0], [0, 1], [1, 0]]) := by decide +kernel

/-- C33 is false for Sparse objects: a feature holding a zero gets a new feature for zero, but the point holding the
zero is one in none of the new features (the loop sees only stored elements, sparse.py:788). -/
theorem C33_sparse_zero_violated :
    ∃ (c r : Coo Nat) (uniq : List Nat), c.WF ∧ c.cols = 1 ∧ spEncode hotOps c = .ok (uniq, r) ∧
      c.at 1 0 = 0 ∧ uniq[2]? = some 0 ∧ ∀ k : Nat, k < r.cols → r.at 1 k = 0 := by
  refine ⟨hotEx, { rows := 3, cols := 3, ents := [⟨0, 0, 1⟩, ⟨2, 1, 1⟩] }, [5, 7, 0], hotEx_WF, rfl, by rfl,
    by decide, by decide, by decide⟩

end Sp
end Nimble
