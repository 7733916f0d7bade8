import Verif.Lemmas.Sort
import Verif.Model.NameChecks

/-! Helper lemmas: name lists with defaults, the consistency check. -/

namespace Nimble

/-- Distinctness of the given names of a list, position by position. -/
theorem reduceOption_nodup_iff {l : List (Option String)} :
    l.reduceOption.Nodup ↔ ∀ (i j : Nat) (s : String), l[i]? = some (some s) → l[j]? = some (some s) → i = j := by
  constructor
  · intro h i j s hi hj; exact nodup_of_reduceOption h hi hj
  · intro h
    induction l with
    | nil => simp [List.reduceOption]
    | cons x l ih =>
      have ih' := ih (fun i j s hi hj => by
        have := h (i + 1) (j + 1) s (by simpa using hi) (by simpa using hj); omega)
      cases x with
      | none => rw [List.reduceOption_cons_of_none]; exact ih'
      | some s =>
        rw [List.reduceOption_cons_of_some, List.nodup_cons]
        refine ⟨fun hm => ?_, ih'⟩
        rw [List.reduceOption_mem_iff] at hm
        obtain ⟨j, hj, he⟩ := List.getElem_of_mem hm
        have := h 0 (j + 1) s (by simp) (by simp [List.getElem?_eq_getElem hj, he])
        omega

theorem PyDict.set_ne_nil {α β : Type} [DecidableEq α] (d : PyDict α β) (k : α) (v : β) :
    PyDict.set d k v ≠ [] := by
  cases d with
  | nil => simp [PyDict.set]
  | cons p d => simp only [PyDict.set]; split <;> simp

/-- The entry of the left list at index `i` is not in conflict with the right list. -/
def CleanAt (right : List (Option String)) (i : Nat) (l : String) : Prop :=
  ((∃ r, (right[i]?).join = some r ∧ l = r) ∨ ((right[i]?).join = none ∧ some l ∉ right))

theorem checkFromLeft_nil_iff (right : List (Option String)) (i : Nat) (ls : List (Option String))
    (ret : PyDict Nat (Option String × Option String)) :
    checkFromLeft right i ls ret = [] ↔
      ret = [] ∧ ∀ k l, ls[k]? = some (some l) → CleanAt right (i + k) l := by
  induction ls generalizing i ret with
  | nil => simp [checkFromLeft]
  | cons x ls ih =>
    have shift : (∀ k l, (x :: ls)[k]? = some (some l) → CleanAt right (i + k) l) ↔
        ((∀ l, x = some l → CleanAt right i l) ∧
          ∀ k l, ls[k]? = some (some l) → CleanAt right (i + 1 + k) l) := by
      constructor
      · intro h
        refine ⟨fun l hl => ?_, fun k l hl => ?_⟩
        · exact h 0 l (by simp [hl])
        · have := h (k + 1) l (by simpa using hl)
          rwa [show i + (k + 1) = i + 1 + k by omega] at this
      · rintro ⟨h0, h1⟩ k l hl
        cases k with
        | zero => exact h0 l (by simpa using hl)
        | succ k =>
          rw [show i + (k + 1) = i + 1 + k by omega]
          exact h1 k l (by simpa using hl)
    rw [shift]
    cases x with
    | none => simp only [checkFromLeft, ih]; simp
    | some l =>
      cases hr : (right[i]?).join with
      | some r =>
        simp only [checkFromLeft, hr, ih]
        by_cases h : l = r
        · subst h
          have : CleanAt right i l := Or.inl ⟨l, hr, rfl⟩
          simp [this]
        · have : ¬ CleanAt right i l := by
            rintro (⟨r', h1, h2⟩ | ⟨h1, _⟩)
            · rw [hr] at h1; cases h1; exact h h2
            · rw [hr] at h1; cases h1
          simp only [ne_eq, h, not_false_eq_true, if_true, PyDict.set_ne_nil, false_and, false_iff]
          rintro ⟨_, h1, _⟩
          exact this (h1 l rfl)
      | none =>
        simp only [checkFromLeft, hr, ih]
        by_cases h : some l ∈ right
        · have : ¬ CleanAt right i l := by
            rintro (⟨r', h1, h2⟩ | ⟨_, h1⟩)
            · rw [hr] at h1; cases h1
            · exact h1 h
          simp only [h, if_true, PyDict.set_ne_nil, false_and, false_iff]
          rintro ⟨_, h1, _⟩
          exact this (h1 l rfl)
        · have : CleanAt right i l := Or.inr ⟨hr, h⟩
          simp [h, this]

theorem inconsistentNames_nil_iff (l r : List (Option String)) :
    inconsistentNames l r = [] ↔
      (∀ k s, l[k]? = some (some s) → CleanAt r k s) ∧
      (∀ k s, r[k]? = some (some s) → CleanAt l k s) := by
  unfold inconsistentNames
  rw [checkFromLeft_nil_iff, checkFromLeft_nil_iff]
  simp

/-- No conflicts with a list of default names. -/
theorem inconsistentNames_all_none {l r : List (Option String)} (h : ∀ x ∈ r, x = none) :
    inconsistentNames l r = [] ∧ inconsistentNames r l = [] := by
  have h1 : ∀ k s, r[k]? = some (some s) → CleanAt l k s := by
    intro k s hk
    have := h _ (List.mem_of_getElem? hk); cases this
  have h2 : ∀ k s, l[k]? = some (some s) → CleanAt r k s := by
    intro k s _
    refine Or.inr ⟨?_, fun hm => by have := h _ hm; cases this⟩
    cases hk : r[k]? with
    | none => rfl
    | some x => rw [h x (List.mem_of_getElem? hk)]; rfl
  exact ⟨(inconsistentNames_nil_iff ..).2 ⟨h2, h1⟩, (inconsistentNames_nil_iff ..).2 ⟨h1, h2⟩⟩

theorem inconsistentNames_self (l : List (Option String)) : inconsistentNames l l = [] := by
  rw [inconsistentNames_nil_iff]
  have : ∀ k s, l[k]? = some (some s) → CleanAt l k s := by
    intro k s hk; exact Or.inl ⟨s, by rw [hk]; rfl, rfl⟩
  exact ⟨this, this⟩

/-- `allDefaultNames` in terms of the listed names. -/
theorem AxisSt.Ok.allDefault_iff {a : AxisSt} (h : a.Ok) :
    a.allDefaultNames = true ↔ ∀ x ∈ a.getNames, x = none := by
  cases ht : a.tbl with
  | none => simp [AxisSt.allDefaultNames, AxisSt.getNames, ht, List.mem_replicate]
  | some t =>
    have hk := h t ht
    simp only [AxisSt.allDefaultNames, AxisSt.getNames, ht, List.isEmpty_iff]
    constructor
    · intro he x hx
      cases x with
      | none => rfl
      | some s =>
        obtain ⟨i, hi, hxe⟩ := List.getElem_of_mem hx
        have := (hk.iff s i).1 (by rw [List.getElem?_eq_getElem hi, hxe])
        rw [he] at this; cases this
    · intro he
      have := hk.length_names
      rw [show t.inv.reduceOption = [] from by
        apply List.eq_nil_iff_forall_not_mem.2
        intro s hs
        rw [List.reduceOption_mem_iff] at hs
        have := he _ hs; cases this] at this
      exact List.eq_nil_of_length_eq_zero (by simpa using this)

theorem AxisSt.Ok.anyDefault_iff_mem {a : AxisSt} (h : a.Ok) (hs : a.tbl.isSome = true) :
    a.anyDefaultNames = true ↔ none ∈ a.getNames := by
  rw [h.consistent.anyDefault_iff]
  constructor
  · rintro (h1 | h1)
    · obtain ⟨x, hx, he⟩ := List.any_eq_true.1 h1
      rwa [beq_iff_eq.1 he] at hx
    · rw [h1] at hs; cases hs
  · intro h1; exact Or.inl (List.any_eq_true.2 ⟨none, h1, rfl⟩)

theorem AxisSt.Ok.reduceOption_nodup {a : AxisSt} (h : a.Ok) : a.getNames.reduceOption.Nodup := by
  cases ht : a.tbl with
  | none =>
    rw [reduceOption_nodup_iff]
    intro i j s hi
    have := List.mem_of_getElem? hi
    simp [AxisSt.getNames, ht, List.mem_replicate] at this
  | some t => rw [AxisSt.getNames_of_some ht]; exact (h t ht).reduceOption_nodup

/-- The keys of the name dict are the given names. -/
theorem AxisSt.Ok.mem_names {a : AxisSt} (h : a.Ok) {t : NameTable} (ht : a.tbl = some t) (s : String) :
    s ∈ PyDict.keys t.names ↔ some s ∈ a.getNames := by
  rw [PyDict.mem_keys, AxisSt.getNames_of_some ht]
  constructor
  · intro hs
    obtain ⟨i, hi⟩ := Option.isSome_iff_exists.1 hs
    exact List.mem_of_getElem? (((h t ht).iff s i).2 hi)
  · intro hs
    obtain ⟨i, hi, he⟩ := List.getElem_of_mem hs
    rw [((h t ht).iff s i).1 (by rw [List.getElem?_eq_getElem hi, he])]; rfl

end Nimble
