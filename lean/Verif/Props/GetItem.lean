import Verif.Model.GetItem
import Verif.Lemmas.Window
import Verif.Props.Names
import Mathlib.Data.List.Nodup
import Mathlib.Data.List.Basic
import Mathlib.Data.List.Perm.Subperm
import Mathlib.Tactic.Ring

/-!
# C05: slice, list and boolean keys select the documented indices
-/

namespace Nimble

/-! ## Specification -/

/-- The identifier denotes the position `i` of the axis: a position counted from the front or (when
negative) from the end, the name at that position, or an integral float. -/
def Denotes (a : AxisSt) : Ident → Nat → Prop
  | .int z, i => i < a.len ∧ (z = (i : Int) ∨ z = (i : Int) - (a.len : Int))
  | .str s, i => a.getNames[i]? = some (some s)
  | .flt q, i => i < a.len ∧ q = ((i : Int) : Rat)

/-- A slice end that may be left out. -/
def EndAt (a : AxisSt) (dflt : Nat) : Option Ident → Nat → Prop
  | none, i => i = dflt
  | some id, i => Denotes a id i

/-- The documented meaning of a key for several points/features. -/
def Selects (a : AxisSt) : MultiKey → List Nat → Prop
  | .slice none none none, idx => idx = List.range a.len
  | .slice start stop step, idx =>
    if 0 < step.getD 1 then
      ∃ st en, EndAt a 0 start st ∧ EndAt a (a.len - 1) stop en ∧ idx.Pairwise (· < ·) ∧
        ∀ i, i ∈ idx ↔ st ≤ i ∧ i ≤ en ∧ step.getD 1 ∣ (i : Int) - (st : Int)
    else
      step.getD 1 ≠ 0 ∧
      ∃ st en, EndAt a (a.len - 1) start st ∧ EndAt a 0 stop en ∧ idx.Pairwise (· > ·) ∧
        ∀ i, i ∈ idx ↔ en ≤ i ∧ i ≤ st ∧ step.getD 1 ∣ (i : Int) - (st : Int)
  | .list els, idx =>
    if els ≠ [] ∧ ∀ e ∈ els, e.isBool = true then
      els.length = a.len ∧ idx.Pairwise (· < ·) ∧ ∀ i : Nat, i ∈ idx ↔ els[i]? = some (.bool true)
    else (∀ e ∈ els, e.isBool = false) ∧ idx.Nodup ∧
      List.Forall₂ (Denotes a) (els.map KeyEl.ident) idx

/-- The meaning of a key for one axis. -/
def AxSelects (a : AxisSt) : AxKey → List Nat → Prop
  | .single i, idx => ∃ k, Denotes a i k ∧ idx = [k]
  | .multi k, idx => Selects a k idx

def Ident.isFlt : Ident → Bool
  | .flt _ => true
  | _ => false

def KeyEl.isFlt : KeyEl → Bool
  | .id i => i.isFlt
  | .bool _ => false

/-- The keys for which the documented meaning is the actual one: no floats, no list mixing booleans
with identifiers, and no negative step with an omitted end. -/
def Plain : AxKey → Prop
  | .single i => i.isFlt = false
  | .multi (.slice start stop step) =>
    (∀ i, start = some i → i.isFlt = false) ∧ (∀ i, stop = some i → i.isFlt = false) ∧
      (step.getD 1 < 0 → start.isSome ∧ stop.isSome)
  | .multi (.list els) => (∀ e ∈ els, e.isFlt = false) ∧
      ((∀ e ∈ els, e.isBool = true) ∨ (∀ e ∈ els, e.isBool = false))

/-! ## Proofs -/

theorem getIndex_flt_irrel (a : AxisSt) (id : Ident) (h : id.isFlt = false) (b : Bool) :
    a.getIndex id b = a.getIndex id := by
  cases id <;> simp_all [AxisSt.getIndex, Ident.isFlt]

theorem getIndex_denotes {a : AxisSt} (h : a.Ok) {id : Ident} (hf : id.isFlt = false) (b : Bool) (r : Int) :
    a.getIndex id b = .ok r ↔ ∃ i : Nat, r = i ∧ Denotes a id i := by
  rw [getIndex_flt_irrel a id hf b]
  cases id with
  | flt q => cases hf
  | str s => exact C04_getIndex_str h s r
  | int z =>
    simp only [AxisSt.getIndex, Denotes]
    by_cases h0 : a.len = 0
    · rw [if_pos h0]
      constructor
      · intro h'; cases h'
      · rintro ⟨i, -, h1, -⟩; omega
    · rw [if_neg h0]
      by_cases hz : z < 0
      · rw [if_pos hz]
        split
        · constructor
          · intro h'; cases h'
          · rintro ⟨i, -, h1, h2⟩; omega
        · constructor
          · intro h'
            cases h'
            exact ⟨((a.len : Int) + z).toNat, by omega, by omega, by omega⟩
          · rintro ⟨i, rfl, h1, h2⟩
            congr 1
            omega
      · rw [if_neg hz]
        split
        · constructor
          · intro h'; cases h'
          · rintro ⟨i, -, h1, h2⟩; omega
        · constructor
          · intro h'
            have h' := Except.ok.inj h'
            exact ⟨z.toNat, by omega, by omega, by omega⟩
          · rintro ⟨i, rfl, h1, h2⟩
            congr 1
            omega

theorem Denotes.lt {a : AxisSt} (h : a.Ok) {id : Ident} {i : Nat} (hd : Denotes a id i) : i < a.len := by
  cases id with
  | int z => exact hd.1
  | flt q => exact hd.1
  | str s =>
    have h1 : a.getNames[i]? = some (some s) := hd
    have := (List.getElem?_eq_some_iff.1 h1).1
    rwa [h.length_getNames] at this

theorem sliceEnd_ok {a : AxisSt} (h : a.Ok) {id : Option Ident} {d : Nat} (hd : d < a.len)
    (hf : ∀ i, id = some i → i.isFlt = false) (r : Int) :
    sliceEnd a id d = .ok r ↔ ∃ i : Nat, r = i ∧ EndAt a d id i := by
  unfold sliceEnd
  cases id with
  | some id => exact getIndex_denotes h (hf _ rfl) true r
  | none =>
    show a.getIndex (.int d) true = .ok r ↔ _
    rw [getIndex_denotes h (id := .int d) rfl true r]
    constructor
    · rintro ⟨i, rfl, h1, h2⟩
      refine ⟨i, rfl, ?_⟩
      show i = d
      omega
    · rintro ⟨i, rfl, h1⟩
      have h1 : i = d := h1
      exact ⟨i, rfl, by omega, Or.inl (by omega)⟩

theorem EndAt.lt {a : AxisSt} (h : a.Ok) {d : Nat} (hd : d < a.len) {id : Option Ident} {i : Nat}
    (he : EndAt a d id i) : i < a.len := by
  cases id with
  | some id => exact Denotes.lt h he
  | none =>
    have : i = d := he
    omega

/-- The increasing range. -/
theorem pyRange_pos {st en : Nat} {s : Int} (hs : 0 < s) :
    ∃ l : List Nat, pyRange st ((en : Int) + 1) s = l.map (fun (i : Nat) => (i : Int)) ∧
      l.Pairwise (· < ·) ∧ ∀ i, i ∈ l ↔ st ≤ i ∧ i ≤ en ∧ s ∣ (i : Int) - (st : Int) := by
  obtain ⟨t, rfl⟩ : ∃ t : Nat, s = t := ⟨s.toNat, by omega⟩
  have ht : 0 < t := by omega
  refine ⟨(List.range (((en : Int) + 1 - st + t - 1) / t).toNat).map (fun k => st + k * t), ?_, ?_, ?_⟩
  · unfold pyRange
    rw [if_pos hs, List.map_map]
    apply List.map_congr_left
    intro k _
    show (st : Int) + k * t = ((st + k * t : Nat) : Int)
    push_cast; ring
  · rw [List.pairwise_map]
    apply List.Pairwise.imp _ List.pairwise_lt_range
    intro x y hxy
    have := Nat.mul_lt_mul_of_pos_right hxy ht
    omega
  · intro i
    simp only [List.mem_map, List.mem_range]
    constructor
    · rintro ⟨k, hk, rfl⟩
      refine ⟨Nat.le_add_right _ _, ?_, ?_⟩
      · have h1 : (k : Int) + 1 ≤ ((en : Int) + 1 - st + t - 1) / t := by omega
        rw [Int.le_ediv_iff_mul_le hs] at h1
        have h2 : ((k : Int) + 1) * t = ((k * t : Nat) : Int) + t := by push_cast; ring
        rw [h2] at h1
        omega
      · refine ⟨k, ?_⟩
        push_cast; ring
    · rintro ⟨h1, h2, c, hc⟩
      have hc0 : 0 ≤ c := by
        by_contra hneg
        have : (t : Int) * c < 0 := Int.mul_neg_of_pos_of_neg hs (by omega)
        omega
      refine ⟨c.toNat, ?_, ?_⟩
      · have h3 : c + 1 ≤ ((en : Int) + 1 - st + t - 1) / t := by
          rw [Int.le_ediv_iff_mul_le hs]
          have : (c + 1) * t = t * c + t := by ring
          rw [this]; omega
        omega
      · have h4 : ((st + c.toNat * t : Nat) : Int) = (i : Int) := by
          push_cast
          rw [Int.toNat_of_nonneg hc0]
          have : c * (t : Int) = t * c := by ring
          rw [this]; omega
        omega

/-- The decreasing range. -/
theorem pyRange_neg {st en : Nat} {s : Int} (hs : s < 0) :
    ∃ l : List Nat, pyRange st ((en : Int) - 1) s = l.map (fun (i : Nat) => (i : Int)) ∧
      l.Pairwise (· > ·) ∧ ∀ i, i ∈ l ↔ en ≤ i ∧ i ≤ st ∧ s ∣ (i : Int) - (st : Int) := by
  obtain ⟨t, rfl⟩ : ∃ t : Nat, s = -t := ⟨(-s).toNat, by omega⟩
  have ht : 0 < t := by omega
  have ht' : (0 : Int) < t := by omega
  have hle : ∀ k : Nat, k < (((st : Int) - (en - 1) - -t - 1) / t).toNat ↔ en + k * t ≤ st := by
    intro k
    have h1 : k < (((st : Int) - (en - 1) - -t - 1) / t).toNat ↔
        (k : Int) + 1 ≤ ((st : Int) - (en - 1) - -t - 1) / t := by omega
    rw [h1, Int.le_ediv_iff_mul_le ht']
    have h2 : ((k : Int) + 1) * t = ((k * t : Nat) : Int) + t := by push_cast; ring
    rw [h2]
    omega
  refine ⟨(List.range (((st : Int) - (en - 1) - -t - 1) / t).toNat).map (fun k => st - k * t), ?_, ?_, ?_⟩
  · unfold pyRange
    rw [if_neg (by omega), List.map_map, Int.neg_neg]
    apply List.map_congr_left
    intro k hk
    have h3 := (hle k).1 (List.mem_range.1 hk)
    show (st : Int) + k * -(t : Int) = ((st - k * t : Nat) : Int)
    have h4 : (k : Int) * -(t : Int) = -((k * t : Nat) : Int) := by push_cast; ring
    rw [h4]
    omega
  · rw [List.pairwise_map]
    apply List.Pairwise.imp_of_mem _ List.pairwise_lt_range
    intro x y hx hy hxy
    have h1 := (hle y).1 (List.mem_range.1 hy)
    have := Nat.mul_lt_mul_of_pos_right hxy ht
    show st - x * t > st - y * t
    omega
  · intro i
    simp only [List.mem_map, List.mem_range]
    constructor
    · rintro ⟨k, hk, rfl⟩
      have h3 := (hle k).1 hk
      refine ⟨by omega, by omega, k, ?_⟩
      have h4 : -(t : Int) * (k : Int) = -((k * t : Nat) : Int) := by push_cast; ring
      rw [h4]
      omega
    · rintro ⟨h1, h2, c, hc⟩
      have hc0 : 0 ≤ c := by
        by_contra hneg
        have : (t : Int) * c < 0 := Int.mul_neg_of_pos_of_neg ht' (by omega)
        have h5 : -(t : Int) * c = -(t * c) := by ring
        omega
      obtain ⟨c, rfl⟩ : ∃ d : Nat, c = d := ⟨c.toNat, by omega⟩
      have h5 : -(t : Int) * c = -((c * t : Nat) : Int) := by push_cast; ring
      rw [h5] at hc
      exact ⟨c, (hle c).2 (by omega), by omega⟩

theorem sorted_ext {l l' : List Nat} {r : Nat → Nat → Prop} (hir : ∀ a b, r a b → r b a → False)
    (h1 : l.Pairwise r) (h2 : l'.Pairwise r)
    (h : ∀ i, i ∈ l ↔ i ∈ l') : l = l' := by
  have hne : ∀ a b, r a b → a ≠ b := fun a b hab e => by subst e; exact hir _ _ hab hab
  have n1 : l.Nodup := h1.imp (fun {a b} hab => hne a b hab)
  have n2 : l'.Nodup := h2.imp (fun {a b} hab => hne a b hab)
  have hp : l.Perm l' := (List.perm_ext_iff_of_nodup n1 n2).2 h
  exact hp.eq_of_pairwise (fun a b _ _ hab hba => (hir a b hab hba).elim) h1 h2

/-- How a list of indices is represented: `None` stands for the whole axis. -/
def Represents (n : Nat) : Option (List Int) → List Nat → Prop
  | none, idx => idx = List.range n
  | some l, idx => l = idx.map (fun (i : Nat) => (i : Int)) 

theorem map_cast_inj {l l' : List Nat} (h : l.map (fun (i : Nat) => (i : Int)) = l'.map (fun (i : Nat) => (i : Int))) :
    l = l' := (List.map_injective_iff (f := fun (i : Nat) => (i : Int))).2 (fun a b (h : (a : Int) = b) => by omega) h

theorem processSlice_selects {a : AxisSt} (h : a.Ok) (h0 : 0 < a.len) {start stop : Option Ident} {step : Option Int}
    (hpl : Plain (.multi (.slice start stop step))) (idx : List Nat) :
    Selects a (.slice start stop step) idx ↔
      ∃ p, processSlice a start stop step = .ok p ∧ Represents a.len p idx := by
  obtain ⟨hf1, hf2, hneg⟩ := hpl
  by_cases hfull : start = none ∧ stop = none ∧ step = none
  · obtain ⟨rfl, rfl, rfl⟩ := hfull
    constructor
    · intro hs; exact ⟨none, rfl, hs⟩
    · rintro ⟨p, h1, h2⟩
      cases h1
      exact h2
  have hsel : Selects a (.slice start stop step) idx ↔ (if 0 < step.getD 1 then
      ∃ st en, EndAt a 0 start st ∧ EndAt a (a.len - 1) stop en ∧ idx.Pairwise (· < ·) ∧
        ∀ i, i ∈ idx ↔ st ≤ i ∧ i ≤ en ∧ step.getD 1 ∣ (i : Int) - (st : Int)
    else
      step.getD 1 ≠ 0 ∧
      ∃ st en, EndAt a (a.len - 1) start st ∧ EndAt a 0 stop en ∧ idx.Pairwise (· > ·) ∧
        ∀ i, i ∈ idx ↔ en ≤ i ∧ i ≤ st ∧ step.getD 1 ∣ (i : Int) - (st : Int)) := by
    cases start <;> cases stop <;> cases step <;> first | rfl | (simp at hfull)
  rw [hsel]
  have hcond : (start.isNone && stop.isNone && step.isNone) = false := by
    cases start <;> cases stop <;> cases step <;> simp_all
  have hl1 : ((a.len - 1 : Nat) : Int) = (a.len : Int) - 1 := by omega
  have he1 := fun r => sliceEnd_ok h (id := start) (d := 0) h0 hf1 r
  have he2 := fun r => sliceEnd_ok h (id := stop) (d := a.len - 1) (by omega) hf2 r
  rw [hl1] at he2
  have hres : ∀ p, processSlice a start stop step = .ok p ↔
      ∃ st en : Nat, EndAt a 0 start st ∧ EndAt a (a.len - 1) stop en ∧
        ((st = 0 ∧ (en : Int) = (a.len : Int) - 1 ∧ step.getD 1 = 1 ∧ p = none) ∨
         (¬ (st = 0 ∧ (en : Int) = (a.len : Int) - 1 ∧ step.getD 1 = 1) ∧ 0 < step.getD 1 ∧
            p = some (pyRange st (en + 1) (step.getD 1))) ∨
         (step.getD 1 < 0 ∧ p = some (pyRange st (en - 1) (step.getD 1)))) := by
    intro p
    unfold processSlice
    rw [hcond]
    simp only [Bool.false_eq_true, if_false]
    constructor
    · intro hp
      obtain ⟨x, hx, hp⟩ := Res.bind_ok.1 hp
      obtain ⟨y, hy, hp⟩ := Res.bind_ok.1 hp
      obtain ⟨st, rfl, hst⟩ := (he1 x).1 hx
      obtain ⟨en, rfl, hen⟩ := (he2 y).1 hy
      refine ⟨st, en, hst, hen, ?_⟩
      split at hp
      · next hc => cases hp; exact Or.inl ⟨by omega, hc.2.1, hc.2.2, rfl⟩
      · next hc =>
        split at hp
        · cases hp
        · next hz =>
          split at hp
          · next hpos => cases hp; exact Or.inr (Or.inl ⟨fun hh => hc ⟨by omega, hh.2.1, hh.2.2⟩, hpos, rfl⟩)
          · next hpos => cases hp; exact Or.inr (Or.inr ⟨by omega, rfl⟩)
    · rintro ⟨st, en, hst, hen, hp⟩
      have hx := (he1 st).2 ⟨st, rfl, hst⟩
      have hy := (he2 en).2 ⟨en, rfl, hen⟩
      refine Res.bind_ok.2 ⟨_, hx, Res.bind_ok.2 ⟨_, hy, ?_⟩⟩
      rcases hp with ⟨h1, h2, h3, rfl⟩ | ⟨h1, h2, rfl⟩ | ⟨h1, rfl⟩
      · rw [if_pos ⟨by omega, h2, h3⟩]; rfl
      · rw [if_neg (fun hh => h1 ⟨by omega, hh.2.1, hh.2.2⟩), if_neg (by omega), if_pos h2]; rfl
      · rw [if_neg (fun hh => by omega), if_neg (by omega), if_neg (by omega)]; rfl
  by_cases hpos : 0 < step.getD 1
  · rw [if_pos hpos]
    constructor
    · rintro ⟨st, en, hst, hen, hpw, hmem⟩
      by_cases hc : st = 0 ∧ (en : Int) = (a.len : Int) - 1 ∧ step.getD 1 = 1
      · refine ⟨none, (hres _).2 ⟨st, en, hst, hen, Or.inl ⟨hc.1, hc.2.1, hc.2.2, rfl⟩⟩, ?_⟩
        apply sorted_ext (fun x y h1 h2 => by omega) hpw List.pairwise_lt_range
        intro i
        rw [hmem, hc.2.2, List.mem_range]
        have := hc.2.1
        have := hc.1
        constructor
        · intro h'; omega
        · intro h'; exact ⟨by omega, by omega, Int.one_dvd _⟩
      · refine ⟨_, (hres _).2 ⟨st, en, hst, hen, Or.inr (Or.inl ⟨hc, hpos, rfl⟩)⟩, ?_⟩
        obtain ⟨l, hl1, hl2, hl3⟩ := pyRange_pos (st := st) (en := en) hpos
        show pyRange _ _ _ = _
        rw [hl1]
        rw [sorted_ext (fun x y h1 h2 => by omega) hpw hl2 (fun i => by rw [hmem, hl3])]
    · rintro ⟨p, hp, hr⟩
      obtain ⟨st, en, hst, hen, hcase⟩ := (hres p).1 hp
      refine ⟨st, en, hst, hen, ?_⟩
      rcases hcase with ⟨h1, h2, h3, rfl⟩ | ⟨h1, h2, rfl⟩ | ⟨h1, rfl⟩
      · have hr : idx = List.range a.len := hr
        subst hr
        refine ⟨List.pairwise_lt_range, ?_⟩
        intro i
        rw [h3, List.mem_range]
        constructor
        · intro h'; exact ⟨by omega, by omega, Int.one_dvd _⟩
        · intro h'; omega
      · have hr : pyRange _ _ _ = _ := hr
        obtain ⟨l, hl1, hl2, hl3⟩ := pyRange_pos (st := st) (en := en) hpos
        rw [hl1] at hr
        rw [← map_cast_inj hr]
        exact ⟨hl2, hl3⟩
      · omega
  · rw [if_neg hpos]
    constructor
    · rintro ⟨hz, st, en, hst, hen, hpw, hmem⟩
      have hlt : step.getD 1 < 0 := by omega
      obtain ⟨hs1, hs2⟩ := hneg hlt
      obtain ⟨is, rfl⟩ := Option.isSome_iff_exists.1 hs1
      obtain ⟨ie, rfl⟩ := Option.isSome_iff_exists.1 hs2
      refine ⟨_, (hres _).2 ⟨st, en, hst, hen, Or.inr (Or.inr ⟨hlt, rfl⟩)⟩, ?_⟩
      obtain ⟨l, hl1, hl2, hl3⟩ := pyRange_neg (st := st) (en := en) hlt
      show pyRange _ _ _ = _
      rw [hl1]
      rw [sorted_ext (fun x y h1 h2 => by omega) hpw hl2 (fun i => by rw [hmem, hl3])]
    · rintro ⟨p, hp, hr⟩
      obtain ⟨st, en, hst, hen, hcase⟩ := (hres p).1 hp
      rcases hcase with ⟨h1, h2, h3, rfl⟩ | ⟨h1, h2, rfl⟩ | ⟨h1, rfl⟩
      · omega
      · omega
      · obtain ⟨hs1, hs2⟩ := hneg h1
        obtain ⟨is, rfl⟩ := Option.isSome_iff_exists.1 hs1
        obtain ⟨ie, rfl⟩ := Option.isSome_iff_exists.1 hs2
        refine ⟨by omega, st, en, hst, hen, ?_⟩
        have hr : pyRange _ _ _ = _ := hr
        obtain ⟨l, hl1, hl2, hl3⟩ := pyRange_neg (st := st) (en := en) h1
        rw [hl1] at hr
        rw [← map_cast_inj hr]
        exact ⟨hl2, hl3⟩

theorem keyIndices_ok {a : AxisSt} (h : a.Ok) {ids : List Ident} (hf : ∀ i ∈ ids, i.isFlt = false) (ks : List Int) :
    keyIndices a ids = .ok ks ↔
      ∃ idx : List Nat, ks = idx.map (fun (i : Nat) => (i : Int)) ∧ List.Forall₂ (Denotes a) ids idx := by
  induction ids generalizing ks with
  | nil =>
    constructor
    · intro h'; cases h'; exact ⟨[], rfl, .nil⟩
    · rintro ⟨idx, rfl, h2⟩; cases h2; rfl
  | cons id ids ih =>
    have ih := ih (fun i hi => hf i (by simp [hi]))
    have hd := getIndex_denotes h (hf id (by simp)) true
    constructor
    · intro h'
      obtain ⟨k, h1, h'⟩ := Res.bind_ok.1 h'
      obtain ⟨ks', h2, h'⟩ := Res.bind_ok.1 h'
      cases h'
      obtain ⟨i, rfl, hi⟩ := (hd k).1 h1
      obtain ⟨idx, rfl, hidx⟩ := (ih ks').1 h2
      exact ⟨i :: idx, rfl, .cons hi hidx⟩
    · rintro ⟨idx, rfl, h2⟩
      cases h2 with
      | cons hi hidx =>
        exact Res.bind_ok.2 ⟨_, (hd _).2 ⟨_, rfl, hi⟩, Res.bind_ok.2 ⟨_, (ih _).2 ⟨_, rfl, hidx⟩, rfl⟩⟩

theorem truePositions_spec {els : List KeyEl} (hb : ∀ e ∈ els, e.isBool = true) :
    ∃ l : List Nat, truePositions els = l.map (fun (i : Nat) => (i : Int)) ∧ l.Pairwise (· < ·) ∧
      ∀ i : Nat, i ∈ l ↔ els[i]? = some (.bool true) := by
  refine ⟨(els.zipIdx.filter (fun p => p.1.truthy)).map (fun p => p.2), ?_, ?_, ?_⟩
  · unfold truePositions
    rw [List.map_map]; rfl
  · have h1 : (els.zipIdx.map Prod.snd).Pairwise (· < ·) := by
      rw [List.zipIdx_map_snd]
      exact List.pairwise_lt_range'
    rw [List.pairwise_map] at h1 ⊢
    exact h1.filter _
  · intro i
    simp only [List.mem_map, List.mem_filter, Prod.exists, List.mk_mem_zipIdx_iff_getElem?, exists_eq_right]
    constructor
    · rintro ⟨e, h1, h2⟩
      have := hb e (List.mem_of_getElem? h1)
      cases e with
      | id i => cases this
      | bool b =>
        have h2 : b = true := h2
        rw [h1, h2]
    · intro h1; exact ⟨_, h1, rfl⟩

theorem range_cast {a : AxisSt} {idx : List Nat} :
    idx.map (fun (i : Nat) => (i : Int)) = (List.range a.len).map (fun (i : Nat) => (i : Int)) ↔
      idx = List.range a.len := ⟨map_cast_inj, fun h => by rw [h]⟩

theorem axisKey_selects {a : AxisSt} (h : a.Ok) (h0 : 0 < a.len) {k : AxKey} (hpl : Plain k) (idx : List Nat) :
    AxSelects a k idx ↔ ∃ p, axisKey a k = .ok p ∧ Represents a.len p idx := by
  cases k with
  | single i =>
    have hd := getIndex_denotes h (id := i) hpl true
    constructor
    · rintro ⟨k, hk, rfl⟩
      exact ⟨some [(k : Int)], Res.map_ok.2 ⟨_, (hd _).2 ⟨k, rfl, hk⟩, rfl⟩, rfl⟩
    · rintro ⟨p, hp, hr⟩
      obtain ⟨z, hz, rfl⟩ := Res.map_ok.1 hp
      obtain ⟨k, rfl, hk⟩ := (hd z).1 hz
      refine ⟨k, hk, ?_⟩
      have hr : [(k : Int)] = idx.map (fun (i : Nat) => (i : Int)) := hr
      exact (map_cast_inj (l := [k]) hr).symm
  | multi k =>
    cases k with
    | slice start stop step => exact processSlice_selects h h0 hpl idx
    | list els =>
      obtain ⟨hf, hb⟩ := hpl
      show Selects a (.list els) idx ↔ ∃ p, processMultiple a (.list els) = .ok p ∧ _
      simp only [Selects, processMultiple]
      by_cases hall : els ≠ [] ∧ ∀ e ∈ els, e.isBool = true
      · rw [if_pos hall]
        have hlen : els.filter KeyEl.isBool = els := List.filter_eq_self.2 hall.2
        have hpos : 0 < els.length := List.length_pos_iff.2 hall.1
        rw [hlen]
        obtain ⟨l, hl1, hl2, hl3⟩ := truePositions_spec hall.2
        by_cases hn : els.length = a.len
        · rw [if_pos hn]
          constructor
          · rintro ⟨-, hpw, hmem⟩
            refine ⟨_, rfl, ?_⟩
            show truePositions els = _
            rw [hl1, sorted_ext (fun x y h1 h2 => by omega) hpw hl2 (fun i => by rw [hmem, hl3])]
          · rintro ⟨p, hp, hr⟩
            cases hp
            have hr : truePositions els = _ := hr
            rw [hl1] at hr
            rw [← map_cast_inj hr]
            exact ⟨hn, hl2, hl3⟩
        · rw [if_neg hn, if_pos hpos]
          constructor
          · rintro ⟨h1, -⟩; exact absurd h1 hn
          · rintro ⟨p, hp, -⟩; cases hp
      · rw [if_neg hall]
        have hnb : ∀ e ∈ els, e.isBool = false := by
          rcases hb with hb | hb
          · by_cases hne : els = []
            · subst hne; simp
            · exact absurd ⟨hne, hb⟩ hall
          · exact hb
        have hlen : els.filter KeyEl.isBool = [] := by
          rw [List.filter_eq_nil_iff]
          intro e he; simp [hnb e he]
        have hf' : ∀ i ∈ els.map KeyEl.ident, i.isFlt = false := by
          intro i hi
          obtain ⟨e, he, rfl⟩ := List.mem_map.1 hi
          have h1 := hf e he
          cases e <;> simp_all [KeyEl.isFlt, KeyEl.ident, Ident.isFlt]
        have hk := keyIndices_ok h hf'
        rw [hlen]
        simp only [List.length_nil]
        rw [if_neg (by omega), if_neg (by omega)]
        constructor
        · rintro ⟨-, hnd, hfa⟩
          have h1 := (hk _).2 ⟨idx, rfl, hfa⟩
          by_cases hr : idx = List.range a.len
          · refine ⟨none, Res.bind_ok.2 ⟨_, h1, ?_⟩, hr⟩
            rw [if_pos (range_cast.2 hr)]; rfl
          · refine ⟨some (idx.map (fun (i : Nat) => (i : Int))), Res.bind_ok.2 ⟨_, h1, ?_⟩, rfl⟩
            rw [if_neg (fun hh => hr (range_cast.1 hh)),
              if_pos (hnd.map (f := fun (i : Nat) => (i : Int)) (fun x y (hxy : (x : Int) = y) => by omega))]
            rfl
        · rintro ⟨p, hp, hr⟩
          obtain ⟨ks, h1, hp⟩ := Res.bind_ok.1 hp
          obtain ⟨idx', rfl, hfa⟩ := (hk ks).1 h1
          split at hp
          · next hc =>
            cases hp
            have hr : idx = _ := hr
            rw [hr, ← range_cast.1 hc]
            refine ⟨hnb, ?_, hfa⟩
            rw [range_cast.1 hc]; exact List.nodup_range
          · split at hp
            · next hnd =>
              cases hp
              have hr : idx'.map _ = idx.map _ := hr
              rw [← map_cast_inj hr]
              exact ⟨hnb, hnd.of_map, hfa⟩
            · cases hp

theorem AxSelects.valid {a : AxisSt} (h : a.Ok) (h0 : 0 < a.len) {k : AxKey} {idx : List Nat}
    (hs : AxSelects a k idx) : idx.Nodup ∧ ∀ i ∈ idx, i < a.len := by
  have hlt : ∀ {l : List Nat}, l.Pairwise (· < ·) → l.Nodup := fun hp => hp.imp (fun h => by omega)
  have hgt : ∀ {l : List Nat}, l.Pairwise (· > ·) → l.Nodup := fun hp => hp.imp (fun h => by omega)
  cases k with
  | single i =>
    obtain ⟨k, hk, rfl⟩ := hs
    refine ⟨by simp, fun i hi => ?_⟩
    rw [List.mem_singleton.1 hi]; exact hk.lt h
  | multi k =>
    cases k with
    | list els =>
      have hs : Selects a (.list els) idx := hs
      simp only [Selects] at hs
      split at hs
      · obtain ⟨h1, h2, h3⟩ := hs
        refine ⟨hlt h2, fun i hi => ?_⟩
        rw [← h1]
        exact (List.getElem?_eq_some_iff.1 ((h3 i).1 hi)).1
      · obtain ⟨h1, h2, h3⟩ := hs
        refine ⟨h2, fun i hi => ?_⟩
        clear h2 h1 hs
        revert hi
        generalize els.map KeyEl.ident = ids at h3
        induction h3 with
        | nil => intro hi; cases hi
        | cons hd _ ih =>
          intro hi
          rcases List.mem_cons.1 hi with rfl | hi
          · exact hd.lt h
          · exact ih hi
    | slice start stop step =>
      have hs : Selects a (.slice start stop step) idx := hs
      have key : (if 0 < step.getD 1 then
          ∃ st en, EndAt a 0 start st ∧ EndAt a (a.len - 1) stop en ∧ idx.Pairwise (· < ·) ∧
            ∀ i, i ∈ idx ↔ st ≤ i ∧ i ≤ en ∧ step.getD 1 ∣ (i : Int) - (st : Int)
        else
          step.getD 1 ≠ 0 ∧
          ∃ st en, EndAt a (a.len - 1) start st ∧ EndAt a 0 stop en ∧ idx.Pairwise (· > ·) ∧
            ∀ i, i ∈ idx ↔ en ≤ i ∧ i ≤ st ∧ step.getD 1 ∣ (i : Int) - (st : Int)) →
          idx.Nodup ∧ ∀ i ∈ idx, i < a.len := by
        intro hc
        split at hc
        · obtain ⟨st, en, h1, h2, h3, h4⟩ := hc
          have := h2.lt h (by omega)
          exact ⟨hlt h3, fun i hi => by have := (h4 i).1 hi; omega⟩
        · obtain ⟨-, st, en, h1, h2, h3, h4⟩ := hc
          have := h1.lt h (by omega)
          exact ⟨hgt h3, fun i hi => by have := (h4 i).1 hi; omega⟩
      cases start <;> cases stop <;> cases step <;> first
        | exact key hs
        | (have hs : idx = List.range a.len := hs
           subst hs
           exact ⟨List.nodup_range, fun i hi => List.mem_range.1 hi⟩)

theorem pyIndices_cast {n : Nat} {idx : List Nat} (hb : ∀ i ∈ idx, i < n) :
    pyIndices n (idx.map (fun (i : Nat) => (i : Int))) = .ok idx := by
  induction idx with
  | nil => rfl
  | cons i idx ih =>
    have hi := hb i (by simp)
    have h1 : pyIndex n (i : Int) = .ok i := by
      unfold pyIndex
      rw [if_pos (by omega)]; rfl
    exact Res.bind_ok.2 ⟨_, h1, Res.bind_ok.2 ⟨_, ih (fun j hj => hb j (by simp [hj])), rfl⟩⟩

theorem axisKey_error {a : AxisSt} (h : a.Ok) (h0 : 0 < a.len) {k : AxKey} (hpl : Plain k)
    (hno : ∀ idx, ¬ AxSelects a k idx) : ∃ e, axisKey a k = .error e := by
  have hk := axisKey_selects h h0 hpl
  cases hp : axisKey a k with
  | error e => exact ⟨e, rfl⟩
  | ok p =>
    exfalso
    cases p with
    | none => exact hno _ ((hk _).2 ⟨none, hp, rfl⟩)
    | some l =>
      have : ∃ idx : List Nat, l = idx.map (fun (i : Nat) => (i : Int)) := by
        cases k with
        | single i =>
          obtain ⟨z, hz, hl⟩ := Res.map_ok.1 hp
          obtain ⟨j, rfl, -⟩ := (getIndex_denotes h (id := i) hpl true z).1 hz
          cases hl
          exact ⟨[j], rfl⟩
        | multi mk =>
          cases mk with
          | list els =>
            have hp : processMultiple a (.list els) = .ok (some l) := hp
            simp only [processMultiple] at hp
            split at hp
            · cases hp
              exact ⟨(els.zipIdx.filter (fun p => p.1.truthy)).map (fun p => p.2), by
                unfold truePositions; rw [List.map_map]; rfl⟩
            · split at hp
              · cases hp
              · obtain ⟨ks, h1, hp⟩ := Res.bind_ok.1 hp
                have hf' : ∀ i ∈ els.map KeyEl.ident, i.isFlt = false := by
                  intro i hi
                  obtain ⟨e, he, rfl⟩ := List.mem_map.1 hi
                  have h1 := hpl.1 e he
                  cases e <;> simp_all [KeyEl.isFlt, KeyEl.ident, Ident.isFlt]
                obtain ⟨idx, rfl, -⟩ := (keyIndices_ok h hf' ks).1 h1
                split at hp
                · cases hp
                · split at hp
                  · cases hp; exact ⟨_, rfl⟩
                  · cases hp
          | slice start stop step =>
            have hp : processSlice a start stop step = .ok (some l) := hp
            unfold processSlice at hp
            split at hp
            · cases hp
            · obtain ⟨x, hx, hp⟩ := Res.bind_ok.1 hp
              obtain ⟨y, hy, hp⟩ := Res.bind_ok.1 hp
              obtain ⟨st, rfl, -⟩ := (sliceEnd_ok h (id := start) (d := 0) h0 hpl.1 x).1 hx
              have hl1 : ((a.len - 1 : Nat) : Int) = (a.len : Int) - 1 := by omega
              obtain ⟨en, rfl, -⟩ := (sliceEnd_ok h (id := stop) (d := a.len - 1) (by omega)
                hpl.2.1 y).1 (by rw [hl1]; exact hy)
              simp only [] at hp
              split at hp
              · cases hp
              · split at hp
                · cases hp
                · split at hp
                  · next hpos =>
                    cases hp
                    obtain ⟨l, hl, -⟩ := pyRange_pos (st := st) (en := en) hpos
                    exact ⟨l, hl⟩
                  · next hz hpos =>
                    cases hp
                    obtain ⟨l, hl, -⟩ := pyRange_neg (st := st) (en := en) (s := step.getD 1) (by omega)
                    exact ⟨l, hl⟩
      obtain ⟨idx, hidx⟩ := this
      exact hno idx ((hk idx).2 ⟨_, hp, hidx⟩)

namespace Obj
variable {V : Type}

theorem backendCopy_spec {o : Obj V} (h : o.WF) (ax : Ax) {p : Option (List Int)} {idx : List Nat}
    (hr : Represents (o.axis ax).len p idx) (hn : idx.Nodup) (hb : ∀ i ∈ idx, i < (o.axis ax).len) :
    ∃ r, o.backendCopy ax p = .ok r ∧ ((p = none ∧ r = o) ∨ SelectedSpec o r ax idx) := by
  cases p with
  | none => exact ⟨o, rfl, Or.inl ⟨rfl, rfl⟩⟩
  | some l =>
    have hr : l = _ := hr
    subst hr
    obtain ⟨r, h1, h2⟩ := selected_spec h ax hn hb
    exact ⟨r, Res.bind_ok.2 ⟨_, pyIndices_cast hb, h1⟩, Or.inr h2⟩

/-- **C05** `obj.points[key]` / `obj.features[key]`: the key is accepted exactly when it denotes
valid, distinct positions in the documented way, and the result shows exactly those, in that
order, with their names. -/
theorem C05_axis_getitem_partial {o : Obj V} (h : o.WF) (ax : Ax) (h0 : 0 < (o.axis ax).len) {k : AxKey}
    (hpl : Plain k) :
    (∀ idx, AxSelects (o.axis ax) k idx →
      idx.Nodup ∧ (∀ i ∈ idx, i < (o.axis ax).len) ∧
      ∃ r, o.axisGetitem ax k = .ok r ∧
        Ax.casesOn ax (Window o r idx (List.range o.fts.len)) (Window o r (List.range o.pts.len) idx)) ∧
    ((∀ idx, ¬ AxSelects (o.axis ax) k idx) → ∃ e, o.axisGetitem ax k = .error e) := by
  have hk := axisKey_selects (h.axisOk ax) h0 hpl
  constructor
  · intro idx hs
    obtain ⟨hn, hb⟩ := hs.valid (h.axisOk ax) h0
    refine ⟨hn, hb, ?_⟩
    obtain ⟨p, hp, hr⟩ := (hk idx).1 hs
    obtain ⟨r, h1, h2⟩ := backendCopy_spec h ax hr hn hb
    refine ⟨r, Res.bind_ok.2 ⟨_, hp, h1⟩, ?_⟩
    rcases h2 with ⟨rfl, rfl⟩ | h2
    · have hr : idx = _ := hr
      subst hr
      cases ax <;> exact Window.refl h
    · cases ax
      · exact window_points h h2 hb
      · exact window_features h h2 hb
  · intro hno
    obtain ⟨e, he⟩ := axisKey_error (h.axisOk ax) h0 hpl hno
    exact ⟨e, by unfold axisGetitem; rw [he]; rfl⟩

/-- An object result. -/
def Item.isObj : Item V → Option (Obj V)
  | .obj o => some o
  | .elem _ => none

def _root_.Nimble.AxKey.isSingle : AxKey → Bool
  | .single _ => true
  | .multi _ => false

/-- **C05** `obj[x, y]`: two single identifiers give the element, every other pair of keys that
denote positions gives the object showing exactly those points and features in that order; a key
that denotes nothing is refused. -/
theorem C05_getitem_partial {o : Obj V} (h : o.WF) (hp0 : 0 < o.pts.len) (hf0 : 0 < o.fts.len)
    {x y : AxKey} (hx : Plain x) (hy : Plain y) :
    (∀ ps fs, AxSelects o.pts x ps → AxSelects o.fts y fs →
      (x.isSingle = true → y.isSingle = true →
        ∃ a b v, ps = [a] ∧ fs = [b] ∧ o.elem? a b = some v ∧ o.getitem x y = .ok (.elem v)) ∧
      ((x.isSingle = true → y.isSingle = false) →
        ∃ r, o.getitem x y = .ok (.obj r) ∧ Window o r ps fs)) ∧
    ((∀ ps, ¬ AxSelects o.pts x ps) ∨ (∀ fs, ¬ AxSelects o.fts y fs) →
      ∃ e, o.getitem x y = .error e) := by
  constructor
  · intro ps fs hps hfs
    constructor
    · intro h1 h2
      cases x with
      | multi _ => cases h1
      | single i =>
        cases y with
        | multi _ => cases h2
        | single j =>
          obtain ⟨a, ha, rfl⟩ := hps
          obtain ⟨b, hb, rfl⟩ := hfs
          have hal := ha.lt h.pts
          have hbl := hb.lt h.fts
          obtain ⟨row, hr1, hr2, hr3⟩ := h.vector_point hal
          have hv : ∃ v, o.elem? a b = some v := by
            unfold elem?
            rw [hr1]
            exact ⟨row[b]'(by omega), List.getElem?_eq_getElem (by omega)⟩
          obtain ⟨v, hv⟩ := hv
          refine ⟨a, b, v, rfl, rfl, hv, ?_⟩
          have e1 := (getIndex_denotes h.pts (id := i) hx true a).2 ⟨a, rfl, ha⟩
          have e2 := (getIndex_denotes h.fts (id := j) hy true b).2 ⟨b, rfl, hb⟩
          have p1 : pyIndex o.pts.len (a : Int) = .ok a := by unfold pyIndex; rw [if_pos (by omega)]; rfl
          have p2 : pyIndex o.fts.len (b : Int) = .ok b := by unfold pyIndex; rw [if_pos (by omega)]; rfl
          have e3 : o.getElem (a : Int) (b : Int) = .ok v := by
            simp only [getElem, p1, p2, bind, Except.bind, hv, pure, Except.pure]
          show (do
            let a ← o.pts.getIndex i (allowFloats := true)
            let b ← o.fts.getIndex j (allowFloats := true)
            let v ← o.getElem a b
            return Item.elem v) = _
          simp only [e1, e2, e3, bind, Except.bind, pure, Except.pure]
    · intro hns
      have hg : o.getitem x y = (o.getitemMany x y).map Item.obj := by
        cases x <;> cases y <;> first | rfl | (exact absurd (hns rfl) (by simp [AxKey.isSingle]))
      obtain ⟨hn1, hb1⟩ := hps.valid h.pts hp0
      obtain ⟨hn2, hb2⟩ := hfs.valid h.fts hf0
      obtain ⟨p, hp, hr⟩ := (axisKey_selects h.pts hp0 hx ps).1 hps
      obtain ⟨q, hq, hr'⟩ := (axisKey_selects h.fts hf0 hy fs).1 hfs
      obtain ⟨r1, h1, h2⟩ := backendCopy_spec h .point (p := p) hr hn1 hb1
      have w1 : Window o r1 ps (List.range o.fts.len) := by
        rcases h2 with ⟨rfl, rfl⟩ | h2
        · have hr : ps = _ := hr
          subst hr
          exact Window.refl h
        · exact window_points h h2 hb1
      have hl : r1.fts.len = o.fts.len := by rw [w1.fLen, List.length_range]
      obtain ⟨r2, h3, h4⟩ := backendCopy_spec w1.wf .feature (p := q) (idx := fs)
        (by show Represents r1.fts.len q fs; rw [hl]; exact hr') hn2
        (by show ∀ i ∈ fs, i < r1.fts.len; rw [hl]; exact hb2)
      have w2 : Window o r2 ps fs := by
        rcases h4 with ⟨rfl, rfl⟩ | h4
        · have hr' : fs = _ := hr'
          subst hr'
          exact w1
        · have := w1.selectFeatures h (by simp) h4 (by simpa using hb2)
          rwa [pick_range_self hb2] at this
      refine ⟨r2, ?_, w2⟩
      rw [hg]
      exact Res.map_ok.2 ⟨r2, Res.bind_ok.2 ⟨_, hp, Res.bind_ok.2 ⟨_, hq, Res.bind_ok.2 ⟨_, h1, h3⟩⟩⟩, rfl⟩
  · intro hno
    cases hg : o.getitem x y with
    | error e => exact ⟨e, rfl⟩
    | ok it =>
      exfalso
      have hkeys : (∃ p, axisKey o.pts x = .ok p) ∧ (∃ q, axisKey o.fts y = .ok q) := by
        by_cases hs : x.isSingle = true ∧ y.isSingle = true
        · cases x with
          | multi _ => cases hs.1
          | single i =>
            cases y with
            | multi _ => cases hs.2
            | single j =>
              obtain ⟨a, e1, hg⟩ := Res.bind_ok.1 hg
              obtain ⟨b, e2, hg⟩ := Res.bind_ok.1 hg
              exact ⟨⟨_, Res.map_ok.2 ⟨_, e1, rfl⟩⟩, ⟨_, Res.map_ok.2 ⟨_, e2, rfl⟩⟩⟩
        · have hg' : o.getitem x y = (o.getitemMany x y).map Item.obj := by
            cases x <;> cases y <;> first | rfl | (exact absurd ⟨rfl, rfl⟩ hs)
          rw [hg'] at hg
          obtain ⟨r, hg, -⟩ := Res.map_ok.1 hg
          obtain ⟨p, e1, hg⟩ := Res.bind_ok.1 hg
          obtain ⟨q, e2, hg⟩ := Res.bind_ok.1 hg
          exact ⟨⟨_, e1⟩, ⟨_, e2⟩⟩
      rcases hno with hno | hno
      · obtain ⟨e, he⟩ := axisKey_error h.pts hp0 hx hno
        obtain ⟨p, hp⟩ := hkeys.1
        rw [he] at hp; cases hp
      · obtain ⟨e, he⟩ := axisKey_error h.fts hf0 hy hno
        obtain ⟨p, hp⟩ := hkeys.2
        rw [he] at hp; cases hp

/-! ## One key -/

/-- **C05** `obj[key]` with one key: for an object with a single point (feature) the key addresses the
features (points); otherwise only the name of a point or of a feature, not both, is accepted and
gives that whole point or feature. -/
theorem C05_getitem_one (o : Obj V) (k : AxKey) :
    (o.pts.len = 1 → o.getitemOne k = o.getitem (.single (.int 0)) k) ∧
    (o.pts.len ≠ 1 → o.fts.len = 1 → o.getitemOne k = o.getitem k (.single (.int 0))) ∧
    (o.pts.len ≠ 1 → o.fts.len ≠ 1 → ∀ s, k = .single (.str s) →
      (some s ∈ o.pts.getNames → some s ∉ o.fts.getNames →
        o.getitemOne k = o.getitem k (.multi (.slice none none none))) ∧
      (some s ∈ o.fts.getNames → some s ∉ o.pts.getNames →
        o.getitemOne k = o.getitem (.multi (.slice none none none)) k) ∧
      ((some s ∈ o.pts.getNames ↔ some s ∈ o.fts.getNames) →
        o.getitemOne k = .error .InvalidArgumentType)) ∧
    (o.pts.len ≠ 1 → o.fts.len ≠ 1 → (∀ s, k ≠ .single (.str s)) →
      o.getitemOne k = .error .InvalidArgumentType) := by
  have hc : ∀ (a : AxisSt) (s : String), keyNamed a (.single (.str s)) = true ↔ some s ∈ a.getNames := by
    intro a s
    simp only [keyNamed, Bool.and_eq_true, decide_eq_true_eq]
    constructor
    · exact fun h => h.2
    · intro h
      refine ⟨?_, h⟩
      unfold AxisSt.getNames at h
      unfold AxisSt.namesCreated
      cases ht : a.tbl with
      | none => rw [ht] at h; simp at h
      | some t => rfl
  refine ⟨?_, ?_, ?_, ?_⟩
  · intro h; unfold getitemOne; rw [if_pos h]
  · intro h h'; unfold getitemOne; rw [if_neg h, if_pos h']
  · rintro h h' s rfl
    unfold getitemOne
    rw [if_neg h, if_neg h']
    by_cases h1 : some s ∈ o.pts.getNames <;> by_cases h2 : some s ∈ o.fts.getNames
    all_goals
      simp only [← hc] at h1 h2 ⊢
      simp [h1, h2, fullSlice]
  · intro h h' hs
    unfold getitemOne
    rw [if_neg h, if_neg h']
    have : ∀ a, keyNamed a k = false := by
      intro a
      cases k with
      | multi _ => rfl
      | single i => cases i with
        | str s => exact absurd rfl (hs s)
        | int _ => rfl
        | flt _ => rfl
    simp [this]

/-! ## Examples and counterexamples -/

/-- A 4 x 3 object with point names a, b, c, d. -/
def giEx : Obj Nat :=
  { data := [[0, 1, 2], [10, 11, 12], [20, 21, 22], [30, 31, 32]],
    pts := ⟨4, some ⟨[("a", 0), ("b", 1), ("c", 2), ("d", 3)],
      [some "a", some "b", some "c", some "d"]⟩⟩,
    fts := ⟨3, none⟩ }

/-- The data of a result. -/
def itemData : Res (Item Nat) → Option (List (List Nat))
  | .ok (.obj r) => some r.data
  | .ok (.elem v) => some [[v]]
  | .error _ => none

example : itemData (giEx.getitem (.multi (.slice (some (.str "b")) (some (.str "d")) none))
    (.multi (.list [.id (.int 2), .id (.int 0)]))) = some [[12, 10], [22, 20], [32, 30]] := by decide
example : itemData (giEx.getitem (.multi (.slice (some (.int 3)) (some (.int 0)) (some (-2))))
    (.single (.int 1))) = some [[31], [11]] := by decide
example : itemData (giEx.getitem (.single (.str "c")) (.single (.int (-1)))) = some [[22]] := by decide
example : Plain (.multi (.slice (some (.str "b")) (some (.str "d")) none)) ∧
    AxSelects giEx.pts (.multi (.slice (some (.str "b")) (some (.str "d")) none)) [1, 2, 3] := by
  refine ⟨⟨?_, ?_, ?_⟩, ?_⟩
  · intro i h; cases h; rfl
  · intro i h; cases h; rfl
  · intro h; exact absurd h (by decide)
  · simp only [AxSelects]
    rw [Selects, if_pos (by decide)]
    · refine ⟨1, 3, by simp [EndAt, Denotes, giEx, AxisSt.getNames], by simp [EndAt, Denotes, giEx, AxisSt.getNames],
        by decide, ?_⟩
      intro i
      simp only [List.mem_cons, List.not_mem_nil, or_false, Option.getD_none]
      constructor
      · intro h; exact ⟨by omega, by omega, Int.one_dvd _⟩
      · intro h; omega
    · simp

/-- **C05 does not hold in general (negative step).** `obj.points[::-1]` should be all points in
reverse order; it is empty. -/
theorem C05_negative_step_violated :
    ¬ AxSelects giEx.pts (.multi (.slice none none (some (-1)))) [] ∧
      (axisKey giEx.pts (.multi (.slice none none (some (-1)))) = .ok (some [])) := by
  refine ⟨?_, by decide⟩
  intro h
  simp only [AxSelects] at h
  rw [Selects, if_neg (by decide)] at h
  · obtain ⟨-, st, en, h1, h2, -, h4⟩ := h
    have h1 : st = 3 := h1
    have h2 : en = 0 := h2
    have := (h4 3).2 ⟨by omega, by omega, by subst h1; exact ⟨0, rfl⟩⟩
    cases this
  · simp

/-- **C05 does not hold in general (floats).** Floats are not normalised to a position:
`obj.points[[-1.0, 3]]` is accepted although both denote the last of the four points, which is then
shown twice. -/
theorem C05_float_violated :
    itemData (Obj.getitem ({ giEx with pts := ⟨4, none⟩ } : Obj Nat)
      (.multi (.list [.id (.flt (-1)), .id (.int 3)])) fullSlice) = some [[30, 31, 32], [30, 31, 32]] := by
  with_unfolding_all rfl

/-- **C05 does not hold in general (over-long boolean key).** A list with as many booleans as there
are points is taken for a boolean key whatever else it contains: `[True, True, True, False, 5]`
is accepted and asks for point 4 of a 4 point object. -/
theorem C05_boolean_violated :
    axisKey giEx.pts (.multi (.list [.bool true, .bool true, .bool true, .bool false, .id (.int 5)])) =
      .ok (some [0, 1, 2, 4]) ∧ giEx.pts.len = 4 := by decide

/-- **C05 does not hold in general (empty axis).** For an axis of length 0 any list without booleans
passes for a boolean key: `[7]` asks for position 0 although there is none. -/
theorem C05_empty_axis_violated :
    axisKey ⟨0, none⟩ (.multi (.list [.id (.int 7)])) = .ok (some [0]) ∧
      ∀ idx, ¬ AxSelects ⟨0, none⟩ (.multi (.list [.id (.int 7)])) idx := by
  refine ⟨by decide, ?_⟩
  intro idx h
  simp only [AxSelects] at h
  rw [Selects, if_neg (by simp [KeyEl.isBool])] at h
  obtain ⟨-, -, h⟩ := h
  cases h with
  | cons h1 _ =>
    have h1 : _ < 0 ∧ _ := h1
    exact absurd h1.1 (by omega)

end Obj
end Nimble
