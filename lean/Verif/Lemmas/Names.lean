import Verif.Spec
import Verif.Lemmas.Py
import Mathlib.Data.List.Nodup
import Mathlib.Data.List.ReduceOption

/-! Helper lemmas about the axis name tables. -/

namespace Nimble

/-- The (name, index) pairs of a list of names starting at index `i`. -/
def namedPairs : Nat → List (Option String) → List (String × Nat)
  | _, [] => []
  | i, none :: l => namedPairs (i + 1) l
  | i, some s :: l => (s, i) :: namedPairs (i + 1) l

theorem map_fst_namedPairs (i : Nat) (l : List (Option String)) :
    (namedPairs i l).map Prod.fst = l.reduceOption := by
  induction l generalizing i with
  | nil => rfl
  | cons x l ih => cases x <;> simp [namedPairs, ih, List.reduceOption_cons_of_none, List.reduceOption_cons_of_some]

theorem mem_namedPairs {i : Nat} {l : List (Option String)} {s : String} {k : Nat} :
    (s, k) ∈ namedPairs i l ↔ i ≤ k ∧ l[k - i]? = some (some s) := by
  induction l generalizing i with
  | nil => simp [namedPairs]
  | cons x l ih =>
    have key : ∀ (h : i < k), (x :: l)[k - i]? = l[k - (i + 1)]? := by
      intro h
      have : k - i = (k - (i + 1)) + 1 := by omega
      rw [this]; simp
    cases x with
    | none =>
      simp only [namedPairs, ih]
      constructor
      · rintro ⟨h1, h2⟩
        exact ⟨by omega, by rw [key (by omega)]; exact h2⟩
      · rintro ⟨h1, h2⟩
        by_cases h : i = k
        · subst h; simp at h2
        · exact ⟨by omega, by rw [key (by omega)] at h2; exact h2⟩
    | some s' =>
      simp only [namedPairs, List.mem_cons, ih, Prod.mk.injEq]
      constructor
      · rintro (⟨rfl, rfl⟩ | ⟨h1, h2⟩)
        · simp
        · exact ⟨by omega, by rw [key (by omega)]; exact h2⟩
      · rintro ⟨h1, h2⟩
        by_cases h : i = k
        · subst h; simp at h2; left; exact ⟨h2.symm, rfl⟩
        · right; exact ⟨by omega, by rw [key (by omega)] at h2; exact h2⟩

theorem listToNames_eq (i : Nat) (l : List (Option String)) (d : PyDict String Nat)
    (hd : (PyDict.keys d).Nodup) :
    listToNames i l d = if (PyDict.keys d ++ l.reduceOption).Nodup then .ok (d ++ namedPairs i l)
      else .error .InvalidArgumentValue := by
  induction l generalizing i d with
  | nil => simp [listToNames, namedPairs, hd]
  | cons x l ih =>
    cases x with
    | none => simp [listToNames, namedPairs, ih _ _ hd, List.reduceOption_cons_of_none]
    | some s =>
      simp only [listToNames]
      by_cases h : s ∈ PyDict.keys d
      · rw [if_pos (PyDict.has_iff.2 h), if_neg]
        rw [List.nodup_append]
        rintro ⟨_, _, h3⟩
        exact h3 s h s (by simp [List.reduceOption_cons_of_some]) rfl
      · have h' : ¬ (PyDict.has d s = true) := fun hh => h (PyDict.has_iff.1 hh)
        rw [if_neg h', ih _ _ (PyDict.nodup_set hd s i)]
        have hs := PyDict.set_of_not_mem (v := i) h
        rw [hs]
        simp [PyDict.keys, namedPairs, List.reduceOption_cons_of_some, List.append_assoc]

theorem fillReverse_eq (n : Nat) (d : List (String × Nat)) (r : List (Option String))
    (h : ∀ p ∈ d, p.2 < n) :
    fillReverse n (d.map (fun p => (p.1, (p.2 : Int)))) r =
      .ok (d.foldl (fun r p => r.set p.2 (some p.1)) r) := by
  induction d generalizing r with
  | nil => rfl
  | cons p d ih =>
    have hp := h p (by simp)
    simp only [List.map_cons, fillReverse, List.foldl_cons]
    rw [if_neg (by omega)]
    simpa using ih (r.set p.2 (some p.1)) (fun q hq => h q (by simp [hq]))

theorem foldl_set_namedPairs (i : Nat) (l : List (Option String)) (r : List (Option String))
    (hr : i + l.length ≤ r.length) (hnone : ∀ k, i ≤ k → k < i + l.length → r[k]? = some none) :
    (namedPairs i l).foldl (fun r p => r.set p.2 (some p.1)) r =
      r.take i ++ l ++ r.drop (i + l.length) := by
  induction l generalizing i r with
  | nil => simp [namedPairs]
  | cons x l ih =>
    simp only [List.length_cons] at hr hnone
    cases x with
    | none =>
      simp only [namedPairs]
      rw [ih (i + 1) r (by omega) (fun k h1 h2 => hnone k (by omega) (by omega))]
      have h0 := hnone i (by omega) (by omega)
      have hi : i < r.length := by omega
      have : r.take (i + 1) = r.take i ++ [none] := by
        rw [List.take_add_one, h0]; rfl
      rw [this]
      simp [Nat.add_assoc, Nat.add_comm 1]
    | some s =>
      simp only [namedPairs, List.foldl_cons]
      rw [ih (i + 1) (r.set i (some s)) (by simp; omega)
        (fun k h1 h2 => by rw [List.getElem?_set_ne (by omega)]; exact hnone k (by omega) (by omega))]
      have hi : i < r.length := by omega
      have h1 : (r.set i (some s)).take (i + 1) = r.take i ++ [some s] := by
        rw [List.take_add_one, List.getElem?_set_self hi, List.take_set_of_le (by omega)]; rfl
      have h2 : (r.set i (some s)).drop (i + 1 + l.length) = r.drop (i + (l.length + 1)) := by
        rw [List.drop_set_of_lt (by omega)]; congr 1; omega
      rw [h1, h2]; simp

/-- `setNames(list)` in closed form. -/
theorem setNames_list_eq (a : AxisSt) (l : List (Option String)) :
    a.setNames (.list l) =
      if l.length = a.len ∧ l.reduceOption.Nodup then
        .ok { a with tbl := some ⟨namedPairs 0 l, l⟩ }
      else .error .InvalidArgumentValue := by
  simp only [AxisSt.setNames]
  by_cases h1 : l.length = a.len
  · rw [if_neg (by simpa using h1)]
    by_cases h0 : a.len = 0
    · have : l = [] := by apply List.length_eq_zero_iff.1; omega
      subst this
      simp [h0, namedPairs]
    · rw [if_neg h0, listToNames_eq 0 l [] (by simp [PyDict.keys])]
      by_cases hn : l.reduceOption.Nodup
      · rw [if_pos (by simpa [PyDict.keys] using hn), if_pos ⟨h1, hn⟩]
        simp only [List.nil_append, bind, Except.bind]
        rw [fillReverse_eq]
        · simp only [pure, Except.pure]
          rw [foldl_set_namedPairs 0 l _ (by simp [h1])]
          · simp [h1]
          · intro k _ hk
            rw [List.getElem?_replicate, if_pos (by omega)]
        · rintro ⟨s, k⟩ hp
          have := mem_namedPairs.1 hp
          have h := this.2
          have hk : k - 0 < l.length := by
            by_contra hc
            rw [List.getElem?_eq_none (by omega)] at h; simp at h
          simp; omega
      · rw [if_neg (by simpa [PyDict.keys] using hn), if_neg (by tauto)]
        rfl
  · rw [if_pos h1, if_neg (by tauto)]

theorem nodup_of_reduceOption {l : List (Option String)} (h : l.reduceOption.Nodup) {i j : Nat}
    {s : String} (hi : l[i]? = some (some s)) (hj : l[j]? = some (some s)) : i = j := by
  rw [← map_fst_namedPairs 0] at h
  have m1 : (s, i) ∈ namedPairs 0 l := mem_namedPairs.2 ⟨by omega, by simpa using hi⟩
  have m2 : (s, j) ∈ namedPairs 0 l := mem_namedPairs.2 ⟨by omega, by simpa using hj⟩
  have := PyDict.get?_of_mem (d := namedPairs 0 l) h m1
  have h2 := PyDict.get?_of_mem (d := namedPairs 0 l) h m2
  rw [this] at h2; exact Option.some.inj h2

theorem namedPairs_ok {l : List (Option String)} (h : l.reduceOption.Nodup) :
    NameTable.Ok ⟨namedPairs 0 l, l⟩ l.length where
  length_inv := rfl
  nodup := by show (PyDict.keys (namedPairs 0 l)).Nodup; unfold PyDict.keys; rw [map_fst_namedPairs]; exact h
  iff := by
    intro s i
    have hn : (PyDict.keys (namedPairs 0 l)).Nodup := by
      unfold PyDict.keys; rw [map_fst_namedPairs]; exact h
    constructor
    · intro hi
      exact PyDict.get?_of_mem hn (mem_namedPairs.2 ⟨by omega, by simpa using hi⟩)
    · intro hg
      simpa using (mem_namedPairs.1 (PyDict.mem_of_get? hg)).2

theorem setNames_list_ok {a a' : AxisSt} {l : List (Option String)}
    (h : a.setNames (.list l) = .ok a') :
    l.length = a.len ∧ l.reduceOption.Nodup ∧ a' = { a with tbl := some ⟨namedPairs 0 l, l⟩ } ∧
      a'.Ok := by
  rw [setNames_list_eq] at h
  split at h
  · next hc =>
    injection h with h
    refine ⟨hc.1, hc.2, h.symm, ?_⟩
    subst h
    intro t ht
    simp at ht; subst ht
    have := namedPairs_ok hc.2
    rw [hc.1] at this; exact this
  · simp at h

theorem defaultTable_ok (n : Nat) : (defaultTable n).Ok n where
  length_inv := by simp [defaultTable]
  nodup := by simp [defaultTable, PyDict.keys]
  iff := by
    intro s i
    simp [defaultTable, List.getElem?_replicate]

theorem AxisSt.Ok.touch {a : AxisSt} (h : a.Ok) : a.touch.Ok := by
  unfold AxisSt.touch
  split
  · intro t ht; simp at ht; subst ht; exact defaultTable_ok _
  · exact h

theorem touch_len (a : AxisSt) : a.touch.len = a.len := by
  unfold AxisSt.touch; split <;> rfl

theorem touch_getNames (a : AxisSt) : a.touch.getNames = a.getNames := by
  unfold AxisSt.touch AxisSt.getNames
  cases h : a.tbl <;> simp [h, defaultTable]

theorem namedPairs_nodup (i : Nat) (l : List (Option String)) : (namedPairs i l).Nodup := by
  induction l generalizing i with
  | nil => simp [namedPairs]
  | cons x l ih =>
    cases x with
    | none => exact ih _
    | some s =>
      simp only [namedPairs, List.nodup_cons]
      refine ⟨fun hm => ?_, ih _⟩
      have := (mem_namedPairs.1 hm).1
      omega

/-- In an `Ok` table the number of dict entries is the number of named positions. -/
theorem NameTable.Ok.perm {t : NameTable} {n : Nat} (h : t.Ok n) :
    (namedPairs 0 t.inv).Perm t.names := by
  have n1 : t.names.Nodup := List.Nodup.of_map Prod.fst h.nodup
  have n2 : (namedPairs 0 t.inv).Nodup := namedPairs_nodup _ _
  rw [List.perm_ext_iff_of_nodup n2 n1]
  rintro ⟨s, i⟩
  rw [mem_namedPairs]
  simp only [Nat.zero_le, Nat.sub_zero, true_and, h.iff]
  constructor
  · exact PyDict.mem_of_get?
  · exact PyDict.get?_of_mem h.nodup

theorem NameTable.Ok.length_names {t : NameTable} {n : Nat} (h : t.Ok n) :
    t.names.length = t.inv.reduceOption.length := by
  rw [← h.perm.length_eq, ← map_fst_namedPairs 0, List.length_map]

theorem AxisSt.getNames_of_some {a : AxisSt} {t : NameTable} (h : a.tbl = some t) :
    a.getNames = t.inv := by simp [AxisSt.getNames, h]

theorem AxisSt.Ok.length_getNames {a : AxisSt} (h : a.Ok) : a.getNames.length = a.len := by
  cases ht : a.tbl with
  | none => simp [AxisSt.getNames, ht]
  | some t => rw [AxisSt.getNames_of_some ht]; exact (h t ht).length_inv

theorem AxisSt.Ok.getName_iff {a : AxisSt} (h : a.Ok) (s : String) (i : Nat) :
    a.getNames[i]? = some (some s) ↔ a.getIndex (.str s) = .ok (i : Int) := by
  cases ht : a.tbl with
  | none =>
    simp only [AxisSt.getNames, ht, AxisSt.getIndex, AxisSt.getIndexByName, List.getElem?_replicate,
      Except.map]
    constructor
    · split <;> simp
    · split <;> simp
  | some t =>
    have hk := h t ht
    rw [AxisSt.getNames_of_some ht, hk.iff]
    simp only [AxisSt.getIndex, AxisSt.getIndexByName, ht]
    by_cases h0 : a.len = 0
    · simp only [h0, if_true]
      have : ¬ PyDict.get? t.names s = some i := by
        rw [← hk.iff]
        have : t.inv = [] := List.length_eq_zero_iff.1 (by rw [hk.length_inv, h0])
        simp [this]
      simp [this]
    · rw [if_neg h0]
      cases hg : PyDict.get? t.names s with
      | none => simp [Except.map]
      | some j => simp [Except.map]; norm_cast

/-- The representation invariant implies the observable one. -/
theorem AxisSt.Ok.consistent {a : AxisSt} (h : a.Ok) : NamesConsistent a where
  length_getNames := h.length_getNames
  getName_iff_getIndex := h.getName_iff
  anyDefault_iff := by
    unfold AxisSt.anyDefaultNames
    cases ht : a.tbl with
    | none => simp
    | some t =>
      have hk := h t ht
      rw [AxisSt.getNames_of_some ht]
      simp only [decide_eq_true_eq, hk.length_names, ← hk.length_inv,
        List.reduceOption_length_lt_iff]
      simp

end Nimble
