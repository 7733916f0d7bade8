import Verif.Model.SparseArith
import Verif.Props.Sparse
import Mathlib.Data.List.Sort
import Mathlib.Data.List.ProdSigma

/-! # Lemmas about the arithmetic of Sparse objects (C95) -/

namespace Nimble.SpArith
open Nimble.Match Nimble.Sp Nimble.Scalar

/-- Some element is zero. -/
def HasZero (o : Coo Flt) : Prop := ∃ i < o.rows, ∃ j < o.cols, o.at i j = 0

/-! ## Values -/

theorem valueAt_eq (o : Coo Flt) (i j : Nat) : valueAt o i j = o.at i j := by
  unfold valueAt Coo.at
  have : (fun e : Ent Flt => decide (e.row = i ∧ e.col = j)) = (fun e => decide (e.pos = (i, j))) := by
    funext e; simp [Ent.pos]
  rw [this]

theorem table_eq (o : Coo Flt) : table o = o.dense := by
  unfold table Coo.dense
  refine List.map_congr_left fun i _ => List.map_congr_left fun j _ => ?_
  exact valueAt_eq o i j

theorem storedAt_iff {o : Coo Flt} (h : o.Core) (i j : Nat) : storedAt o i j = true ↔ o.at i j ≠ 0 := by
  unfold storedAt
  simp only [List.any_eq_true, decide_eq_true_eq]
  constructor
  · rintro ⟨e, he, rfl, rfl⟩
    rw [Coo.at_of_mem h.nodup he]
    exact h.nonzero e he
  · intro hne
    refine ⟨⟨i, j, o.at i j⟩, (Coo.mem_iff_at h hne).2 rfl, rfl, rfl⟩

theorem keepEnt_eq_some {e e' : Ent Flt} {v : Flt} :
    keepEnt e v = some e' ↔ v ≠ 0 ∧ e' = ⟨e.row, e.col, v⟩ := by
  unfold keepEnt
  split
  · next h => simp [h]
  · next h => simp [h, eq_comm]

/-- Values replaced, zeros dropped. -/
theorem keep_core {o : Coo Flt} (h : o.Core) (f : Ent Flt → Flt) {l : List (Ent Flt)}
    (hl : l = o.ents.filterMap (fun e => keepEnt e (f e))) {s : Option Ax} {x : Option (List Nat)} :
    (⟨o.rows, o.cols, l, s, x⟩ : Coo Flt).Core := by
  subst hl
  have hmem : ∀ e', e' ∈ o.ents.filterMap (fun e => keepEnt e (f e)) →
      ∃ e ∈ o.ents, f e ≠ 0 ∧ e' = ⟨e.row, e.col, f e⟩ := by
    intro e' he
    obtain ⟨e, h1, h2⟩ := List.mem_filterMap.1 he
    exact ⟨e, h1, keepEnt_eq_some.1 h2⟩
  refine ⟨?_, ?_, ?_, ?_⟩
  · show (List.map Ent.pos (o.ents.filterMap _)).Nodup
    have hp : o.ents.Pairwise (fun a b => a.pos ≠ b.pos) := List.pairwise_map.1 h.nodup
    rw [List.nodup_iff_pairwise_ne, List.pairwise_map]
    refine List.Pairwise.filterMap _ ?_ hp
    intro a b hab a' ha' b' hb'
    obtain ⟨_, rfl⟩ := keepEnt_eq_some.1 ha'
    obtain ⟨_, rfl⟩ := keepEnt_eq_some.1 hb'
    exact hab
  · intro e he
    obtain ⟨e0, h1, _, rfl⟩ := hmem e he
    exact h.row_lt e0 h1
  · intro e he
    obtain ⟨e0, h1, _, rfl⟩ := hmem e he
    exact h.col_lt e0 h1
  · intro e he
    obtain ⟨e0, _, h2, rfl⟩ := hmem e he
    exact h2

theorem keep_at_mem {o : Coo Flt} (h : o.Core) (f : Ent Flt → Flt) {l : List (Ent Flt)}
    (hl : l = o.ents.filterMap (fun e => keepEnt e (f e))) {s : Option Ax} {x : Option (List Nat)}
    {e : Ent Flt} (he : e ∈ o.ents) : (⟨o.rows, o.cols, l, s, x⟩ : Coo Flt).at e.row e.col = f e := by
  have hc := keep_core h f hl (s := s) (x := x)
  subst hl
  by_cases h0 : f e = 0
  · rw [h0]
    refine Coo.at_of_not fun e' he' hpos => ?_
    obtain ⟨e1, h1, h2⟩ := List.mem_filterMap.1 he'
    obtain ⟨h3, rfl⟩ := keepEnt_eq_some.1 h2
    have : e1 = e := List.inj_on_of_nodup_map h.nodup h1 he hpos
    subst this
    exact h3 h0
  · have hm : (⟨e.row, e.col, f e⟩ : Ent Flt) ∈ o.ents.filterMap (fun e => keepEnt e (f e)) :=
      List.mem_filterMap.2 ⟨e, he, keepEnt_eq_some.2 ⟨h0, rfl⟩⟩
    exact Coo.at_of_mem hc.nodup hm

theorem keep_at_not {o : Coo Flt} (h : o.Core) (f : Ent Flt → Flt) {l : List (Ent Flt)}
    (hl : l = o.ents.filterMap (fun e => keepEnt e (f e))) {s : Option Ax} {x : Option (List Nat)}
    {i j : Nat} (hz : o.at i j = 0) : (⟨o.rows, o.cols, l, s, x⟩ : Coo Flt).at i j = 0 := by
  subst hl
  refine Coo.at_of_not fun e' he' hpos => ?_
  obtain ⟨e1, h1, h2⟩ := List.mem_filterMap.1 he'
  obtain ⟨_, rfl⟩ := keepEnt_eq_some.1 h2
  have hp : e1.row = i ∧ e1.col = j := by simpa [Ent.pos] using hpos
  obtain ⟨rfl, rfl⟩ := hp
  rw [Coo.at_of_mem h.nodup h1] at hz
  exact h.nonzero e1 h1 hz

theorem core_wf {o : Coo Flt} (h : o.Core) (hs : o.sorted = none) (hi : o.indices = none) : o.WF :=
  ⟨h, fun ax hx => (by rw [hs] at hx; cases hx), fun l hl => (by rw [hi] at hl; cases hl)⟩

theorem ent_of_at {o : Coo Flt} (h : o.Core) {i j : Nat} (hne : o.at i j ≠ 0) :
    (⟨i, j, o.at i j⟩ : Ent Flt) ∈ o.ents := (Coo.mem_iff_at h hne).2 rfl

/-! ## Zeros -/

def allPos (o : Coo Flt) : List (Nat × Nat) := (List.range o.rows).product (List.range o.cols)

theorem allPos_nodup (o : Coo Flt) : (allPos o).Nodup := List.Nodup.product List.nodup_range List.nodup_range

theorem mem_allPos {o : Coo Flt} {p : Nat × Nat} : p ∈ allPos o ↔ p.1 < o.rows ∧ p.2 < o.cols := by
  obtain ⟨a, b⟩ := p
  simp [allPos, List.mem_product]

theorem length_allPos (o : Coo Flt) : (allPos o).length = o.rows * o.cols := by
  unfold allPos
  rw [show (List.range o.rows).product (List.range o.cols) = (List.range o.rows) ×ˢ (List.range o.cols) from rfl,
    List.length_product]
  simp

theorem pos_subset {o : Coo Flt} (h : o.Core) : o.ents.map Ent.pos ⊆ allPos o := by
  intro p hp
  obtain ⟨e, he, rfl⟩ := List.mem_map.1 hp
  exact mem_allPos.2 ⟨h.row_lt e he, h.col_lt e he⟩

/-- `containsZero` tells the truth. -/
theorem containsZero_iff {o : Coo Flt} (h : o.Core) : containsZero o = true ↔ HasZero o := by
  unfold containsZero
  rw [decide_eq_true_eq]
  have hsp : (o.ents.map Ent.pos).Subperm (allPos o) := List.subperm_of_subset h.nodup (pos_subset h)
  constructor
  · intro hlt
    by_contra hno
    have hsub : allPos o ⊆ o.ents.map Ent.pos := by
      intro p hp
      rw [mem_allPos] at hp
      have hne : o.at p.1 p.2 ≠ 0 := fun h0 => hno ⟨p.1, hp.1, p.2, hp.2, h0⟩
      exact List.mem_map.2 ⟨_, ent_of_at h hne, rfl⟩
    have := (List.subperm_of_subset (allPos_nodup o) hsub).length_le
    rw [length_allPos, List.length_map] at this
    omega
  · rintro ⟨i, hi, j, hj, h0⟩
    by_contra hge
    have hp := hsp.perm_of_length_le (by rw [length_allPos, List.length_map]; omega)
    have : (i, j) ∈ o.ents.map Ent.pos := hp.mem_iff.2 (mem_allPos.2 ⟨hi, hj⟩)
    obtain ⟨e, he, hpos⟩ := List.mem_map.1 this
    have hh : e.row = i ∧ e.col = j := by simpa [Ent.pos] using hpos
    obtain ⟨rfl, rfl⟩ := hh
    rw [Coo.at_of_mem h.nodup he] at h0
    exact h.nonzero e he h0

/-- Without zeros everything is stored. -/
theorem full_perm {o : Coo Flt} (h : o.Core) (hz : ¬ HasZero o) : (o.ents.map Ent.pos).Perm (allPos o) := by
  have h1 : ¬ containsZero o = true := fun hc => hz ((containsZero_iff h).1 hc)
  unfold containsZero at h1
  rw [decide_eq_true_eq] at h1
  exact (List.subperm_of_subset h.nodup (pos_subset h)).perm_of_length_le
    (by rw [length_allPos, List.length_map]; omega)

/-! ## Floating point errors -/

theorem firstFlag_none {l : List (Except FpFlag Flt)} (h : firstFlag l = none) :
    ∀ x ∈ l, ∃ v, x = .ok v := by
  intro x hx
  unfold firstFlag at h
  split at h
  · cases h
  · split at h
    · cases h
    · next h1 h2 =>
      cases x with
      | ok v => exact ⟨v, rfl⟩
      | error fl =>
        exfalso
        cases fl
        · exact h1 (List.any_eq_true.2 ⟨_, hx, rfl⟩)
        · exact h2 (List.any_eq_true.2 ⟨_, hx, rfl⟩)

theorem isError_eq {fl : FpFlag} {x : Except FpFlag Flt} (h : isError fl x = true) : x = .error fl := by
  cases x with
  | ok v => cases h
  | error g => simp only [isError, decide_eq_true_eq] at h; rw [h]

theorem firstFlag_some {l : List (Except FpFlag Flt)} {fl : FpFlag} (h : firstFlag l = some fl) :
    (.error fl) ∈ l := by
  unfold firstFlag at h
  split at h
  · next h1 =>
    cases h
    obtain ⟨x, hx, hh⟩ := List.any_eq_true.1 h1
    rw [isError_eq hh] at hx; exact hx
  · split at h
    · next h1 =>
      cases h
      obtain ⟨x, hx, hh⟩ := List.any_eq_true.1 h1
      rw [isError_eq hh] at hx; exact hx
    · cases h

theorem val_of_ok {x : Except FpFlag Flt} (h : ∃ v, x = .ok v) : x = .ok (val x) := by
  obtain ⟨v, rfl⟩ := h; rfl

/-! ## Sorting two full objects alike -/

theorem lexLe_antisymm {ax : Ax} {a b : Ent Flt} (h1 : Coo.lexLe ax a b = true) (h2 : Coo.lexLe ax b a = true) :
    a.pos = b.pos := by
  simp only [Coo.lexLe, Bool.or_eq_true, Bool.and_eq_true, decide_eq_true_eq] at h1 h2
  have h3 : a.on ax = b.on ax ∧ a.on ax.off = b.on ax.off := by omega
  cases ax
  · exact Prod.ext h3.1 h3.2
  · exact Prod.ext h3.2 h3.1

def posLe (ax : Ax) (p q : Nat × Nat) : Prop := Coo.lexLe ax (⟨p.1, p.2, 0⟩ : Ent Flt) ⟨q.1, q.2, 0⟩ = true

theorem posLe_of {ax : Ax} {l : List (Ent Flt)} (h : l.Pairwise (fun a b => Coo.lexLe ax a b = true)) :
    (l.map Ent.pos).Pairwise (posLe ax) := by
  rw [List.pairwise_map]
  refine h.imp ?_
  intro a b hab
  cases ax <;> exact hab

theorem sorted_pos_eq {ax : Ax} {l m : List (Ent Flt)}
    (h1 : l.Pairwise (fun a b => Coo.lexLe ax a b = true)) (h2 : m.Pairwise (fun a b => Coo.lexLe ax a b = true))
    (hp : (l.map Ent.pos).Perm (m.map Ent.pos)) : l.map Ent.pos = m.map Ent.pos := by
  refine List.Perm.eq_of_pairwise ?_ (posLe_of h1) (posLe_of h2) hp
  intro a b _ _ hab hba
  exact lexLe_antisymm hab hba

end Nimble.SpArith
