import Verif.Py
import Mathlib.Data.List.Nodup
import Mathlib.Data.List.Perm.Basic
import Mathlib.Data.List.Range

/-! Helper lemmas about `PyDict`, `pick` and `dropIdx`. -/

namespace Nimble

/-- A sequence of calls succeeds exactly when the first succeeds and the rest succeeds on its
value. -/
theorem Res.bind_ok {α β : Type} {x : Res α} {f : α → Res β} {b : β} :
    (x >>= f) = .ok b ↔ ∃ a, x = .ok a ∧ f a = .ok b := by
  cases x with
  | error e =>
    constructor
    · intro h; cases h
    · rintro ⟨a, h, _⟩; cases h
  | ok a =>
    constructor
    · intro h; exact ⟨a, rfl, h⟩
    · rintro ⟨a', h, h'⟩; cases h; exact h'

theorem Res.map_ok {α β : Type} {x : Res α} {f : α → β} {b : β} :
    x.map f = .ok b ↔ ∃ a, x = .ok a ∧ f a = b := by
  cases x with
  | error e =>
    constructor
    · intro h; cases h
    · rintro ⟨a, h, _⟩; cases h
  | ok a =>
    constructor
    · intro h; cases h; exact ⟨a, rfl, rfl⟩
    · rintro ⟨a', h, h'⟩; cases h; rw [← h']; rfl


namespace PyDict

variable {α β : Type} [DecidableEq α]

@[simp] theorem get?_nil (k : α) : get? ([] : PyDict α β) k = none := rfl

theorem get?_set (d : PyDict α β) (k : α) (v : β) (k' : α) :
    get? (set d k v) k' = if k = k' then some v else get? d k' := by
  induction d with
  | nil => simp [set, get?]
  | cons p d ih =>
    obtain ⟨a, b⟩ := p
    by_cases h : a = k
    · subst h; simp only [set, if_true, get?]; by_cases h2 : a = k' <;> simp [h2]
    · simp only [set, if_neg h, get?, ih]
      by_cases h2 : a = k'
      · subst h2; simp [Ne.symm h]
      · simp [h2]

@[simp] theorem get?_set_self (d : PyDict α β) (k : α) (v : β) : get? (set d k v) k = some v := by
  simp [get?_set]

theorem get?_del (d : PyDict α β) (k k' : α) :
    get? (del d k) k' = if k = k' then none else get? d k' := by
  induction d with
  | nil => simp [del]
  | cons p d ih =>
    obtain ⟨a, b⟩ := p
    unfold del at ih ⊢
    by_cases h : a = k
    · subst h; simp [get?]; by_cases h2 : a = k' <;> simp_all [get?]
    · simp [h, get?] ; by_cases h2 : a = k'
      · subst h2; simp [Ne.symm h]
      · simp_all

theorem mem_keys {d : PyDict α β} {k : α} : k ∈ keys d ↔ (get? d k).isSome := by
  induction d with
  | nil => simp [keys]
  | cons p d ih =>
    obtain ⟨a, b⟩ := p
    simp only [keys, List.map_cons, List.mem_cons, get?] at ih ⊢
    by_cases h : a = k
    · simp [h]
    · simp [h, Ne.symm h, ih]

theorem get?_isSome_of_mem {d : PyDict α β} {p : α × β} (h : p ∈ d) : (get? d p.1).isSome := by
  rw [← mem_keys]; exact List.mem_map_of_mem h

theorem mem_of_get? {d : PyDict α β} {k : α} {v : β} (h : get? d k = some v) : (k, v) ∈ d := by
  induction d with
  | nil => simp at h
  | cons p d ih =>
    obtain ⟨a, b⟩ := p
    simp only [get?] at h
    by_cases h2 : a = k
    · simp_all
    · simp_all

theorem get?_of_mem {d : PyDict α β} (hn : (keys d).Nodup) {k : α} {v : β} (h : (k, v) ∈ d) :
    get? d k = some v := by
  induction d with
  | nil => simp at h
  | cons p d ih =>
    obtain ⟨a, b⟩ := p
    simp only [keys, List.map_cons, List.nodup_cons] at hn
    rcases List.mem_cons.1 h with h1 | h1
    · cases h1; simp [get?]
    · have : k ∈ keys d := List.mem_map_of_mem (f := Prod.fst) h1
      have hne : a ≠ k := by rintro rfl; exact hn.1 this
      simp [get?, hne]; exact ih hn.2 h1

@[simp] theorem keys_nil : keys ([] : PyDict α β) = [] := rfl

@[simp] theorem keys_cons (p : α × β) (d : PyDict α β) : keys (p :: d) = p.1 :: keys d := by
  unfold keys; rw [List.map_cons]

theorem has_iff {d : PyDict α β} {k : α} : has d k = true ↔ k ∈ keys d := by
  rw [mem_keys]; rfl

theorem mem_keys_set {d : PyDict α β} {k k' : α} {v : β} :
    k' ∈ keys (set d k v) ↔ k' = k ∨ k' ∈ keys d := by
  rw [mem_keys, mem_keys, get?_set]; by_cases h : k = k'
  · simp [h]
  · simp [h, Ne.symm h]

theorem keys_set_of_mem {d : PyDict α β} {k : α} {v : β} (h : k ∈ keys d) :
    keys (set d k v) = keys d := by
  induction d with
  | nil => simp [keys] at h
  | cons p d ih =>
    obtain ⟨a, b⟩ := p
    by_cases h2 : a = k
    · simp [set, h2, keys]
    · have : k ∈ keys d := by
        simp only [keys, List.map_cons, List.mem_cons] at h
        rcases h with h | h
        · exact absurd h.symm h2
        · exact h
      simp only [set, if_neg h2, keys, List.map_cons]
      rw [show List.map Prod.fst (set d k v) = keys d from ih this]; rfl

theorem set_of_not_mem {d : PyDict α β} {k : α} {v : β} (h : k ∉ keys d) :
    set d k v = d ++ [(k, v)] := by
  induction d with
  | nil => simp [set]
  | cons p d ih =>
    obtain ⟨a, b⟩ := p
    simp only [keys, List.map_cons, List.mem_cons, not_or] at h
    simp only [set, if_neg (Ne.symm h.1), List.cons_append]
    rw [ih h.2]

theorem nodup_set {d : PyDict α β} (hn : (keys d).Nodup) (k : α) (v : β) :
    (keys (set d k v)).Nodup := by
  by_cases h : k ∈ keys d
  · rwa [keys_set_of_mem h]
  · rw [set_of_not_mem h]
    simp only [keys, List.map_append, List.map_cons, List.map_nil] at *
    exact List.Nodup.append hn (by simp) (by simpa using h)

theorem nodup_del {d : PyDict α β} (hn : (keys d).Nodup) (k : α) : (keys (del d k)).Nodup :=
  hn.sublist ((List.filter_sublist).map _)

theorem nodup_ofPairs (l : List (α × β)) : (keys (ofPairs l)).Nodup := by
  unfold ofPairs
  suffices h : ∀ d : PyDict α β, (keys d).Nodup →
      (keys (l.foldl (fun d p => set d p.1 p.2) d)).Nodup by exact h [] (by simp [keys])
  induction l with
  | nil => intro d h; simpa
  | cons p l ih => intro d h; simp only [List.foldl_cons]; exact ih _ (nodup_set h _ _)

theorem foldl_set_append {l : List (α × β)} {d : PyDict α β}
    (h : (l.map Prod.fst).Nodup) (hd : ∀ k ∈ l.map Prod.fst, k ∉ keys d) :
    l.foldl (fun d p => set d p.1 p.2) d = d ++ l := by
  induction l generalizing d with
  | nil => simp
  | cons p l ih =>
    simp only [List.map_cons, List.nodup_cons] at h
    have hp : p.1 ∉ keys d := hd p.1 (by simp)
    rw [List.foldl_cons, set_of_not_mem hp, ih h.2, List.append_assoc]; rfl
    intro k hk
    simp only [keys, List.map_append, List.mem_append, List.map_cons, List.map_nil,
      List.mem_singleton, not_or]
    refine ⟨hd k (by simp [hk]), ?_⟩
    rintro rfl; exact h.1 hk

theorem ofPairs_nodup {l : List (α × β)} (h : (l.map Prod.fst).Nodup) : ofPairs l = l := by
  unfold ofPairs; rw [foldl_set_append h (by simp [keys])]; rfl

end PyDict

/-! ### `pick` -/

theorem pick_nil {α : Type} (l : List α) : pick l [] = [] := rfl

theorem pick_cons {α : Type} {l : List α} {i : Nat} (is : List Nat) (h : i < l.length) :
    pick l (i :: is) = l[i] :: pick l is := by
  simp [pick, List.filterMap_cons, h]

theorem pick_append {α : Type} (l : List α) (a b : List Nat) :
    pick l (a ++ b) = pick l a ++ pick l b := by simp [pick]

theorem length_pick {α : Type} {l : List α} {idxs : List Nat} (h : ∀ i ∈ idxs, i < l.length) :
    (pick l idxs).length = idxs.length := by
  induction idxs with
  | nil => rfl
  | cons i is ih =>
    rw [pick_cons is (h i (by simp))]; simp [ih (fun j hj => h j (by simp [hj]))]

theorem getElem?_pick {α : Type} {l : List α} {idxs : List Nat} (h : ∀ i ∈ idxs, i < l.length)
    (k : Nat) : (pick l idxs)[k]? = (idxs[k]?).bind (fun i => l[i]?) := by
  induction idxs generalizing k with
  | nil => simp [pick]
  | cons i is ih =>
    have hi := h i (by simp)
    rw [pick_cons is hi]
    cases k with
    | zero => simp [hi]
    | succ k => simpa using ih (fun j hj => h j (by simp [hj])) k

theorem pick_map {α β : Type} (f : α → β) (l : List α) (idxs : List Nat) :
    pick (l.map f) idxs = (pick l idxs).map f := by
  simp [pick, List.map_filterMap, List.getElem?_map]

theorem pick_range {α : Type} (l : List α) : pick l (List.range l.length) = l := by
  apply List.ext_getElem?
  intro k
  rw [getElem?_pick (by simp)]
  by_cases h : k < l.length
  · simp [h]
  · simp [h]

theorem pick_range_of_eq {α : Type} (l : List α) {n : Nat} (h : n = l.length) :
    pick l (List.range n) = l := by subst h; exact pick_range l

theorem pick_pick {α : Type} {l : List α} {a b : List Nat} (ha : ∀ i ∈ a, i < l.length)
    (hb : ∀ i ∈ b, i < a.length) : pick (pick l a) b = pick l (pick a b) := by
  apply List.ext_getElem?
  intro k
  have hb' : ∀ i ∈ b, i < (pick l a).length := by rw [length_pick ha]; exact hb
  have hab : ∀ i ∈ pick a b, i < l.length := by
    intro i hi
    simp only [pick, List.mem_filterMap] at hi
    obtain ⟨j, _, hj⟩ := hi
    exact ha i (List.mem_of_getElem? hj)
  rw [getElem?_pick hb', getElem?_pick hab, getElem?_pick hb]
  cases hbk : b[k]? with
  | none => simp
  | some j => simp [getElem?_pick ha]

theorem mem_pick {α : Type} {l : List α} {idxs : List Nat} {x : α} :
    x ∈ pick l idxs ↔ ∃ i ∈ idxs, l[i]? = some x := by simp [pick]

theorem perm_pick_of_perm {α : Type} (l : List α) {a b : List Nat} (h : a.Perm b) :
    (pick l a).Perm (pick l b) := h.filterMap _

theorem pick_perm {α : Type} {l : List α} {idxs : List Nat}
    (h : idxs.Perm (List.range l.length)) : (pick l idxs).Perm l := by
  have := perm_pick_of_perm l h
  rwa [pick_range] at this

/-- The remaining indices of an axis of length `n` after removing `idxs`. -/
theorem mem_rest {n : Nat} {idxs : List Nat} {i : Nat} :
    i ∈ (List.range n).filter (fun i => i ∉ idxs) ↔ i < n ∧ i ∉ idxs := by simp

theorem nodup_rest (n : Nat) (idxs : List Nat) :
    ((List.range n).filter (fun i => i ∉ idxs)).Nodup := List.nodup_range.filter _

theorem perm_targets_rest {n : Nat} {idxs : List Nat} (hn : idxs.Nodup) (hb : ∀ i ∈ idxs, i < n) :
    (idxs ++ (List.range n).filter (fun i => i ∉ idxs)).Perm (List.range n) := by
  rw [List.perm_ext_iff_of_nodup ?_ List.nodup_range]
  · intro a; simp only [List.mem_append, mem_rest, List.mem_range]
    constructor
    · rintro (h | h); exacts [hb a h, h.1]
    · intro h; by_cases h2 : a ∈ idxs
      · exact Or.inl h2
      · exact Or.inr ⟨h, h2⟩
  · refine List.Nodup.append hn (nodup_rest _ _) ?_
    intro a ha hb2
    exact (mem_rest.1 hb2).2 ha

theorem length_rest {n : Nat} {idxs : List Nat} (hn : idxs.Nodup) (hb : ∀ i ∈ idxs, i < n) :
    ((List.range n).filter (fun i => i ∉ idxs)).length = n - idxs.length := by
  have := (perm_targets_rest hn hb).length_eq
  simp only [List.length_append, List.length_range] at this
  omega

theorem length_dropIdx {α : Type} {l : List α} {idxs : List Nat} (hn : idxs.Nodup)
    (hb : ∀ i ∈ idxs, i < l.length) : (dropIdx l idxs).length = l.length - idxs.length := by
  unfold dropIdx
  rw [length_pick (fun i hi => (mem_rest.1 hi).1), length_rest hn hb]

theorem pick_sublist_of_sorted {α : Type} (l : List α) (p : Nat → Bool) :
    (pick l ((List.range l.length).filter p)).Sublist l := by
  have : (pick l ((List.range l.length).filter p)).Sublist (pick l (List.range l.length)) :=
    List.Sublist.filterMap _ List.filter_sublist
  rwa [pick_range] at this

end Nimble
