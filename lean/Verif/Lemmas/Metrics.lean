import Verif.Model.Metrics
import Verif.Lemmas.Obj
import Mathlib.Algebra.BigOperators.Group.List.Lemmas
import Mathlib.Data.List.Count

/-! Lemmas about filling the confusion matrix. -/

namespace Nimble

variable {V : Type} [DecidableEq V]

def cellN (m : List (List Nat)) (i j : Nat) : Nat := ((m[i]?).bind (·[j]?)).getD 0

structure CmShape (n : Nat) (m : List (List Nat)) : Prop where
  rows : m.length = n
  cols : ∀ r ∈ m, r.length = n

theorem cmZeros_shape (n : Nat) : CmShape n (cmZeros n) := by
  constructor
  · simp [cmZeros]
  · intro r hr; simp [cmZeros] at hr; simp [hr.2]

theorem cmZeros_cell (n i j : Nat) : cellN (cmZeros n) i j = 0 := by
  unfold cellN cmZeros
  rw [List.getElem?_replicate]
  split
  · simp only [Option.bind_some]
    rw [List.getElem?_replicate]
    split <;> rfl
  · rfl

theorem modify_shape {n : Nat} {m : List (List Nat)} (h : CmShape n m) (i : Nat)
    (f : List Nat → List Nat) (hf : ∀ r, (f r).length = r.length) : CmShape n (m.modify i f) := by
  constructor
  · simpa using h.rows
  · intro r hr
    obtain ⟨k, hk⟩ := List.mem_iff_getElem?.1 hr
    rw [List.getElem?_modify] at hk
    cases hmk : m[k]? with
    | none => simp [hmk] at hk
    | some x =>
      rw [hmk] at hk
      have hx := h.cols x (List.mem_of_getElem? hmk)
      by_cases e : i = k
      · simp [e] at hk; rw [← hk, hf, hx]
      · simp [e] at hk; rw [← hk, hx]

theorem modify_cell {n : Nat} {m : List (List Nat)} (h : CmShape n m) {i j : Nat} (hi : i < n)
    (hj : j < n) (g : Nat → Nat) (a b : Nat) :
    cellN (m.modify i (fun r => r.modify j g)) a b
      = if a = i ∧ b = j then g (cellN m a b) else cellN m a b := by
  unfold cellN
  rw [List.getElem?_modify]
  have hi' : i < m.length := by rw [h.rows]; exact hi
  by_cases e : i = a
  · subst e
    rw [List.getElem?_eq_getElem hi']
    have hl : m[i].length = n := h.cols _ (List.getElem_mem hi')
    simp only [Option.map_eq_map, Option.map_some, if_true, Option.bind_some, true_and]
    rw [List.getElem?_modify]
    by_cases e2 : j = b
    · subst e2
      rw [List.getElem?_eq_getElem (by rw [hl]; exact hj)]
      simp
    · simp only [e2, if_false, id_eq, Option.map_eq_map, Option.map_id']
      rw [if_neg (fun h => e2 h.symm)]
  · rw [if_neg (by intro hh; exact e hh.1.symm)]
    simp [e]

theorem cmInc_shape {n : Nat} {m : List (List Nat)} (h : CmShape n m) (i j : Nat) :
    CmShape n (cmInc m i j) := modify_shape h i _ (by simp)

theorem cmSet_shape {n : Nat} {m : List (List Nat)} (h : CmShape n m) (i j c : Nat) :
    CmShape n (cmSet m i j c) := modify_shape h i _ (by simp)

theorem cmInc_cell {n : Nat} {m : List (List Nat)} (h : CmShape n m) {i j : Nat} (hi : i < n)
    (hj : j < n) (a b : Nat) :
    cellN (cmInc m i j) a b = cellN m a b + if a = i ∧ b = j then 1 else 0 := by
  unfold cmInc
  rw [modify_cell h hi hj]
  split <;> rfl

theorem set_eq_modify (r : List Nat) (j c : Nat) : r.set j c = r.modify j (fun _ => c) := by
  apply List.ext_getElem?
  intro k
  rw [List.getElem?_set, List.getElem?_modify]
  by_cases e : j = k
  · subst e
    by_cases hk : j < r.length
    · simp [hk]
    · simp [hk]
  · simp [e]

theorem cmSet_cell {n : Nat} {m : List (List Nat)} (h : CmShape n m) {i j : Nat} (hi : i < n)
    (hj : j < n) (c a b : Nat) :
    cellN (cmSet m i j c) a b = if a = i ∧ b = j then c else cellN m a b := by
  unfold cmSet
  simp only [set_eq_modify]
  exact modify_cell h hi hj _ a b

/-! ### The loops -/

/-- All pairs have an index: the loop counts them. -/
theorem fillList_ok (lv : LabelVals V) {n : Nat} (idx : V → Nat) :
    ∀ (pairs : List (V × V)) (m : List (List Nat)), CmShape n m →
      (∀ kp ∈ pairs, labelIndex lv n kp.1 = .ok (idx kp.1) ∧ labelIndex lv n kp.2 = .ok (idx kp.2)) →
      (∀ kp ∈ pairs, idx kp.1 < n ∧ idx kp.2 < n) →
      ∃ m', fillList lv n pairs m = .ok m' ∧ CmShape n m' ∧
        ∀ i j, cellN m' i j = cellN m i j + pairs.countP (fun kp => idx kp.1 = j ∧ idx kp.2 = i)
  | [], m, hm, _, _ => ⟨m, rfl, hm, fun i j => by simp⟩
  | kp :: rest, m, hm, h1, h2 => by
    have hb := h2 kp (by simp)
    obtain ⟨m', h3, h4, h5⟩ := fillList_ok lv idx rest (cmInc m (idx kp.2) (idx kp.1))
      (cmInc_shape hm _ _) (fun x hx => h1 x (by simp [hx])) (fun x hx => h2 x (by simp [hx]))
    refine ⟨m', ?_, h4, ?_⟩
    · unfold fillList
      simp only [bind, Except.bind, (h1 kp (by simp)).1, (h1 kp (by simp)).2, h3]
    · intro i j
      rw [h5, cmInc_cell hm hb.2 hb.1, List.countP_cons]
      by_cases e : idx kp.1 = j ∧ idx kp.2 = i
      · rw [if_pos ⟨e.2.symm, e.1.symm⟩]; simp [e]; omega
      · rw [if_neg (fun h => e ⟨h.2.symm, h.1.symm⟩)]; simp [e]

theorem idxOf?_of_mem {l : List V} {v : V} (h : v ∈ l) : l.idxOf? v = some (l.idxOf v) := by
  induction l with
  | nil => cases h
  | cons a l ih =>
    rw [List.idxOf?_cons, List.idxOf_cons]
    by_cases e : a = v
    · simp [e]
    · have : (a == v) = false := by simpa using e
      rw [this]
      simp only [Bool.false_eq_true, if_false, cond_false]
      have hm : v ∈ l := by
        rcases List.mem_cons.1 h with h | h
        · exact absurd h.symm e
        · exact h
      rw [ih hm]
      rfl

theorem idxOf?_of_not_mem {l : List V} {v : V} (h : v ∉ l) : l.idxOf? v = none := by
  rw [List.idxOf?_eq_none_iff]; exact h

theorem idxOf_iff {l : List V} (hn : l.Nodup) {v w : V} {i : Nat} (hv : v ∈ l) (hi : l[i]? = some w) :
    l.idxOf v = i ↔ v = w := by
  obtain ⟨hlt, hget⟩ := List.getElem?_eq_some_iff.1 hi
  constructor
  · intro e
    have := List.getElem_idxOf (List.idxOf_lt_length_iff.2 hv)
    subst e
    rw [← hget, this]
  · intro e
    subst e
    rw [← hget]
    exact hn.idxOf_getElem i hlt

theorem fillDict_ok {keys : List V} (hn : keys.Nodup) :
    ∀ (pairs : List (V × V)) (m : List (List Nat)), CmShape keys.length m →
      (∀ kp ∈ pairs, kp.1 ∈ keys ∧ kp.2 ∈ keys) →
      ∃ m', fillDict keys pairs m = .ok m' ∧ CmShape keys.length m' ∧
        ∀ i j k p, keys[j]? = some k → keys[i]? = some p →
          cellN m' i j = cellN m i j + pairs.count (k, p)
  | [], m, hm, _ => ⟨m, rfl, hm, fun i j k p _ _ => by simp⟩
  | kp :: rest, m, hm, h => by
    have hb := h kp (by simp)
    have hl1 := List.idxOf_lt_length_iff.2 hb.1
    have hl2 := List.idxOf_lt_length_iff.2 hb.2
    obtain ⟨m', h3, h4, h5⟩ := fillDict_ok hn rest
      (cmInc m (keys.idxOf kp.2) (keys.idxOf kp.1)) (cmInc_shape hm _ _) (fun x hx => h x (by simp [hx]))
    refine ⟨m', ?_, h4, ?_⟩
    · unfold fillDict
      rw [idxOf?_of_mem hb.1, idxOf?_of_mem hb.2]
      exact h3
    · intro i j k p hk hp
      rw [h5 i j k p hk hp, cmInc_cell hm hl2 hl1, List.count_cons]
      have e1 := idxOf_iff hn hb.1 hk
      have e2 := idxOf_iff hn hb.2 hp
      by_cases e : kp = (k, p)
      · rw [if_pos ⟨(e2.2 (by rw [e])).symm, (e1.2 (by rw [e])).symm⟩, if_pos (by simp [e])]
        omega
      · rw [if_neg, if_neg (by simp [e])]
        · omega
        · intro hh
          apply e
          exact Prod.ext (e1.1 hh.2.symm) (e2.1 hh.1.symm)

theorem fillDict_missing {keys : List V} : ∀ (pairs : List (V × V)) (m : List (List Nat)),
    (∃ kp ∈ pairs, kp.1 ∉ keys ∨ kp.2 ∉ keys) → fillDict keys pairs m = .error .KeyError
  | [], _, h => by simp at h
  | kp :: rest, m, h => by
    unfold fillDict
    by_cases h1 : kp.1 ∈ keys
    · by_cases h2 : kp.2 ∈ keys
      · rw [idxOf?_of_mem h1, idxOf?_of_mem h2]
        apply fillDict_missing
        obtain ⟨x, hx, hx2⟩ := h
        rcases List.mem_cons.1 hx with e | e
        · subst e; tauto
        · exact ⟨x, e, hx2⟩
      · rw [idxOf?_of_not_mem h2]
        cases keys.idxOf? kp.1 <;> rfl
    · rw [idxOf?_of_not_mem h1]

/-! ### Counting pairs in a dict -/

theorem countPairs_get? : ∀ (xs : List (V × V)) (d : PyDict (V × V) Nat) (x : V × V),
    PyDict.get? (countPairs d xs) x =
      if xs.count x = 0 then PyDict.get? d x else some ((PyDict.get? d x).getD 0 + xs.count x)
  | [], d, x => by simp [countPairs]
  | y :: ys, d, x => by
    rw [countPairs, countPairs_get? ys, PyDict.get?_set, List.count_cons]
    by_cases e : y = x
    · subst e
      simp only [if_true, Option.getD_some, BEq.rfl]
      by_cases hc : ys.count y = 0
      · simp [hc]
      · simp [hc]; omega
    · have : (y == x) = false := by simpa using e
      simp [e]

theorem countPairs_nodup : ∀ (xs : List (V × V)) (d : PyDict (V × V) Nat),
    (PyDict.keys d).Nodup → (PyDict.keys (countPairs d xs)).Nodup
  | [], _, h => h
  | y :: ys, d, h => by
    rw [countPairs]
    exact countPairs_nodup ys _ (PyDict.nodup_set h _ _)

theorem fillCounts_ok {labels : List V} (hn : labels.Nodup) :
    ∀ (es : PyDict (V × V) Nat) (m : List (List Nat)), CmShape labels.length m →
      (PyDict.keys es).Nodup → (∀ e ∈ es, e.1.1 ∈ labels ∧ e.1.2 ∈ labels) →
      ∃ m', fillCounts labels es m = .ok m' ∧ CmShape labels.length m' ∧
        ∀ i j k p, labels[j]? = some k → labels[i]? = some p →
          cellN m' i j = (PyDict.get? es (k, p)).getD (cellN m i j)
  | [], m, hm, _, _ => ⟨m, rfl, hm, fun i j k p _ _ => by simp⟩
  | (kp, c) :: rest, m, hm, hd, h => by
    have hb := h (kp, c) (by simp)
    have hl1 := List.idxOf_lt_length_iff.2 hb.1
    have hl2 := List.idxOf_lt_length_iff.2 hb.2
    have hd' : kp ∉ PyDict.keys rest ∧ (PyDict.keys rest).Nodup := by
      simpa [PyDict.keys] using List.nodup_cons.1 hd
    obtain ⟨m', h3, h4, h5⟩ := fillCounts_ok hn rest
      (cmSet m (labels.idxOf kp.2) (labels.idxOf kp.1) c) (cmSet_shape hm _ _ _) hd'.2
      (fun x hx => h x (by simp [hx]))
    refine ⟨m', ?_, h4, ?_⟩
    · unfold fillCounts
      rw [idxOf?_of_mem hb.1, idxOf?_of_mem hb.2]
      exact h3
    · intro i j k p hk hp
      rw [h5 i j k p hk hp, cmSet_cell hm hl2 hl1]
      have e1 := idxOf_iff hn hb.1 hk
      have e2 := idxOf_iff hn hb.2 hp
      have hg : PyDict.get? ((kp, c) :: rest) (k, p) = if kp = (k, p) then some c
          else PyDict.get? rest (k, p) := rfl
      rw [hg]
      by_cases e : kp = (k, p)
      · rw [if_pos ⟨(e2.2 (by rw [e])).symm, (e1.2 (by rw [e])).symm⟩, if_pos e]
        have : PyDict.get? rest (k, p) = none := by
          rw [← e]
          cases hx : PyDict.get? rest kp with
          | none => rfl
          | some v => exact absurd (PyDict.mem_keys.2 (by rw [hx]; rfl)) hd'.1
        rw [this]; rfl
      · rw [if_neg, if_neg e]
        intro hh
        apply e
        exact Prod.ext (e1.1 hh.2.symm) (e2.1 hh.1.symm)

theorem fillCounts_missing {labels : List V} : ∀ (es : PyDict (V × V) Nat) (m : List (List Nat)),
    (∃ e ∈ es, e.1.1 ∉ labels ∨ e.1.2 ∉ labels) → fillCounts labels es m = .error .ValueError
  | [], _, h => by simp at h
  | (kp, c) :: rest, m, h => by
    unfold fillCounts
    by_cases h1 : kp.1 ∈ labels
    · by_cases h2 : kp.2 ∈ labels
      · rw [idxOf?_of_mem h1, idxOf?_of_mem h2]
        apply fillCounts_missing
        obtain ⟨x, hx, hx2⟩ := h
        rcases List.mem_cons.1 hx with e | e
        · subst e; tauto
        · exact ⟨x, e, hx2⟩
      · rw [idxOf?_of_not_mem h2]
        cases labels.idxOf? kp.1 <;> rfl
    · rw [idxOf?_of_not_mem h1]

theorem countPairs_mem {xs : List (V × V)} {e : (V × V) × Nat} (h : e ∈ countPairs [] xs) :
    e.1 ∈ xs := by
  have := PyDict.get?_isSome_of_mem h
  rw [countPairs_get?] at this
  by_cases hc : xs.count e.1 = 0
  · simp [hc] at this
  · exact List.count_pos_iff.1 (Nat.pos_of_ne_zero hc)

theorem countPairs_has {xs : List (V × V)} {x : V × V} (h : x ∈ xs) :
    ∃ e ∈ countPairs [] xs, e.1 = x := by
  have hc := List.count_pos_iff.2 h
  have : PyDict.get? (countPairs [] xs) x = some (xs.count x) := by
    rw [countPairs_get?, if_neg (by omega)]; simp
  exact ⟨_, PyDict.mem_of_get? this, rfl⟩

end Nimble
