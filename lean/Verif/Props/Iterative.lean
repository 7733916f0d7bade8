import Verif.Model.Iterative
import Verif.Props.Holdout
import Mathlib.Data.List.Perm.Basic

/-!
# C75: iterative selection

`Tuning(selection="iterative", validation="data")`: starting in the middle of the sorted values, each step
moves arguments to a neighbouring value that improves the performance.
-/

namespace Nimble

variable {K V P : Type} [DecidableEq K]

/-! ## Lemmas -/

theorem lower_mem {values : List V} {i : Nat} {v : V} (h : lower values i = some v) : v ∈ values := by
  unfold lower at h
  split at h
  · exact List.mem_of_getElem? h
  · cases h

theorem neighbour_some {isBest : P → P → Bool} {perf : PyDict K V → P} {base : PyDict K V} {p : P} {k : K}
    {v : Option V} {w : V} {q : P} (h : neighbour isBest perf base p k v = some (w, q)) :
    v = some w ∧ q = perf (PyDict.set base k w) ∧ isBest q p = true := by
  unfold neighbour at h
  cases v with
  | none => cases h
  | some u =>
    dsimp only at h
    split at h
    · rename_i hb
      injection h with h
      injection h with h1 h2
      subst h1
      exact ⟨rfl, h2.symm, h2 ▸ hb⟩
    · cases h

theorem neighbour_none {isBest : P → P → Bool} {perf : PyDict K V → P} {base : PyDict K V} {p : P} {k : K}
    {v : Option V} (h : neighbour isBest perf base p k v = none) {w : V} (hv : v = some w) :
    isBest (perf (PyDict.set base k w)) p = false := by
  subst hv
  unfold neighbour at h
  dsimp only at h
  split at h
  · cases h
  · rename_i hb; simpa using hb

/-- What `trial` chooses is the value of a neighbour that is better, and the new index is that of a
neighbour. -/
theorem trial_some {isBest : P → P → Bool} {perf : PyDict K V → P} {base : PyDict K V} {p : P} {k : K}
    {values : List V} {i : Nat} {v : V} {j : Nat} (h : trial isBest perf base p k values i = some (v, j)) :
    v ∈ values ∧ isBest (perf (PyDict.set base k v)) p = true ∧ (i < values.length → j < values.length) := by
  unfold trial at h
  cases hl : neighbour isBest perf base p k (lower values i) with
  | none =>
    cases hh : neighbour isBest perf base p k values[i + 1]? with
    | none => rw [hl, hh] at h; cases h
    | some q =>
      obtain ⟨w, r⟩ := q
      rw [hl, hh] at h
      obtain ⟨h1, h2, h3⟩ := neighbour_some hh
      injection h with h
      injection h with e1 e2
      subst e1; subst e2
      exact ⟨List.mem_of_getElem? h1, by rw [← h2]; exact h3, fun _ => (List.getElem?_eq_some_iff.1 h1).1⟩
  | some q =>
    obtain ⟨lo, pl⟩ := q
    obtain ⟨l1, l2, l3⟩ := neighbour_some hl
    cases hh : neighbour isBest perf base p k values[i + 1]? with
    | none =>
      rw [hl, hh] at h
      injection h with h
      injection h with e1 e2
      subst e1; subst e2
      exact ⟨lower_mem l1, by rw [← l2]; exact l3, fun hi => by omega⟩
    | some q =>
      obtain ⟨w, r⟩ := q
      rw [hl, hh] at h
      obtain ⟨h1, h2, h3⟩ := neighbour_some hh
      replace h : (if isBest r pl then some (lo, i + 1) else some (w, i - 1)) = some (v, j) := h
      split at h
      · injection h with h
        injection h with e1 e2
        subst e1; subst e2
        exact ⟨lower_mem l1, by rw [← l2]; exact l3, fun _ => (List.getElem?_eq_some_iff.1 h1).1⟩
      · injection h with h
        injection h with e1 e2
        subst e1; subst e2
        exact ⟨List.mem_of_getElem? h1, by rw [← h2]; exact h3, fun hi => by omega⟩

theorem trials_values {isBest : P → P → Bool} {perf : PyDict K V → P} {base : PyDict K V} {p : P}
    {vals : PyDict K (List V)} : ∀ (idx : PyDict K Nat) {k : K} {v : V},
    (k, v) ∈ (trials isBest perf base p vals idx).1 → v ∈ (PyDict.get? vals k).getD []
  | [], k, v, h => by simp [trials] at h
  | (k', i) :: rest, k, v, h => by
    unfold trials at h
    dsimp only at h
    cases ht : trial isBest perf base p k' ((PyDict.get? vals k').getD []) i with
    | none => rw [ht] at h; exact trials_values rest h
    | some q =>
      obtain ⟨w, j⟩ := q
      rw [ht] at h
      rcases List.mem_cons.1 h with e | e
      · injection e with e1 e2
        subst e1; subst e2
        exact (trial_some ht).1
      · exact trials_values rest e

theorem trials_keys {isBest : P → P → Bool} {perf : PyDict K V → P} {base : PyDict K V} {p : P}
    {vals : PyDict K (List V)} : ∀ (idx : PyDict K Nat) {q : K × V},
    q ∈ (trials isBest perf base p vals idx).1 → q.1 ∈ PyDict.keys idx
  | [], q, h => by simp [trials] at h
  | (k', i) :: rest, q, h => by
    unfold trials at h
    dsimp only at h
    rw [PyDict.keys_cons]
    cases ht : trial isBest perf base p k' ((PyDict.get? vals k').getD []) i with
    | none => rw [ht] at h; exact List.mem_cons_of_mem _ (trials_keys rest h)
    | some w =>
      obtain ⟨w, j⟩ := w
      rw [ht] at h
      rcases List.mem_cons.1 h with e | e
      · rw [e]; exact List.mem_cons_self
      · exact List.mem_cons_of_mem _ (trials_keys rest e)

theorem trials_idx {isBest : P → P → Bool} {perf : PyDict K V → P} {base : PyDict K V} {p : P}
    {vals : PyDict K (List V)} : ∀ (idx : PyDict K Nat),
    (∀ q ∈ idx, q.2 < ((PyDict.get? vals q.1).getD []).length) →
    (∀ q ∈ (trials isBest perf base p vals idx).2, q.2 < ((PyDict.get? vals q.1).getD []).length) ∧
    PyDict.keys (trials isBest perf base p vals idx).2 = PyDict.keys idx
  | [], _ => ⟨by simp [trials], rfl⟩
  | (k', i) :: rest, h => by
    obtain ⟨i1, i2⟩ := trials_idx (isBest := isBest) (perf := perf) (base := base) (p := p) rest
      (fun q hq => h q (List.mem_cons_of_mem _ hq))
    unfold trials
    dsimp only
    cases ht : trial isBest perf base p k' ((PyDict.get? vals k').getD []) i with
    | none =>
      refine ⟨fun q hq => ?_, by simp [i2]⟩
      rcases List.mem_cons.1 hq with e | e
      · rw [e]; exact h _ List.mem_cons_self
      · exact i1 q e
    | some w =>
      obtain ⟨w, j⟩ := w
      refine ⟨fun q hq => ?_, by simp [i2]⟩
      rcases List.mem_cons.1 hq with e | e
      · rw [e]; exact (trial_some ht).2.2 (h _ List.mem_cons_self)
      · exact i1 q e

theorem get?_updateArgs (curr : PyDict K V) : ∀ (best : PyDict K V) (k : K),
    PyDict.get? (updateArgs curr best) k = PyDict.get? curr k ∨
    ∃ v, (k, v) ∈ best ∧ PyDict.get? (updateArgs curr best) k = some v := by
  intro best
  induction best generalizing curr with
  | nil => intro k; exact .inl rfl
  | cons q best ih =>
    intro k
    obtain ⟨k', v⟩ := q
    show PyDict.get? (updateArgs (PyDict.set curr k' v) best) k = _ ∨ _
    rcases ih (PyDict.set curr k' v) k with e | ⟨w, hw, e⟩
    · rw [PyDict.get?_set] at e
      by_cases hk : k' = k
      · subst hk
        right
        refine ⟨v, List.mem_cons_self, ?_⟩
        show PyDict.get? (updateArgs (PyDict.set curr k' v) best) k' = _
        rw [e]; simp
      · left; rw [e, if_neg hk]
    · exact .inr ⟨w, List.mem_cons_of_mem _ hw, e⟩

theorem keys_updateArgs : ∀ (best : PyDict K V) (curr : PyDict K V),
    (∀ q ∈ best, q.1 ∈ PyDict.keys curr) → PyDict.keys (updateArgs curr best) = PyDict.keys curr
  | [], _, _ => rfl
  | (k, v) :: best, curr, h => by
    show PyDict.keys (updateArgs (PyDict.set curr k v) best) = _
    have hk := PyDict.keys_set_of_mem (v := v) (h (k, v) List.mem_cons_self)
    rw [keys_updateArgs best _ (fun q hq => by rw [hk]; exact h q (List.mem_cons_of_mem _ hq)), hk]

/-! ## The values tried -/

/-- The invariant of the selector. -/
structure IterInv (args : PyDict K (ArgVal V)) (st : IterSt K V P) : Prop where
  keys : PyDict.keys st.curr = PyDict.keys args
  curr : ∀ k v, PyDict.get? st.curr k = some v → ∃ av, PyDict.get? args k = some av ∧ v ∈ av.values
  vals : ∀ k l, PyDict.get? st.vals k = some l → ∃ av, PyDict.get? args k = some av ∧ ∀ v ∈ l, v ∈ av.values
  idx : ∀ q ∈ st.idx, q.2 < ((PyDict.get? st.vals q.1).getD []).length ∧ q.1 ∈ PyDict.keys args

theorem keys_get?_set {d : PyDict K V} {k : K} {v : V} (h : k ∉ PyDict.keys d) :
    PyDict.keys (PyDict.set d k v) = PyDict.keys d ++ [k] := by
  rw [PyDict.set_of_not_mem h]; simp [PyDict.keys]

theorem iterInit_inv (le : V → V → Bool) : ∀ (rest : PyDict K (ArgVal V)) (done : PyDict K (ArgVal V))
    (st st' : IterSt K V P), (PyDict.keys (done ++ rest)).Nodup → IterInv done st →
    iterInit le rest st = .ok st' → IterInv (done ++ rest) st' ∧ st'.best = st.best ∧ st'.count = st.count
  | [], done, st, st', _, hi, h => by
    injection h with h
    subst h
    rw [List.append_nil]
    exact ⟨hi, rfl, rfl⟩
  | (k, av) :: rest, done, st, st', hn, hi, h => by
    have hn' : (PyDict.keys ((done ++ [(k, av)]) ++ rest)).Nodup := by simpa using hn
    have hk : k ∉ PyDict.keys done := by
      unfold PyDict.keys at hn ⊢
      rw [List.map_append, List.nodup_append] at hn
      intro hm
      exact hn.2.2 _ hm _ (List.mem_cons_self) rfl
    have hkc : k ∉ PyDict.keys st.curr := by rw [hi.keys]; exact hk
    have hget : ∀ k' av', PyDict.get? done k' = some av' → PyDict.get? (done ++ [(k, av)]) k' = some av' := by
      intro k' av' h'
      have : PyDict.set done k av = done ++ [(k, av)] := PyDict.set_of_not_mem hk
      rw [← this, PyDict.get?_set]
      rw [if_neg]
      · exact h'
      · rintro rfl
        exact hk (PyDict.mem_keys.2 (by rw [h']; rfl))
    have hgk : PyDict.get? (done ++ [(k, av)]) k = some av := by
      rw [← (PyDict.set_of_not_mem hk : PyDict.set done k av = _)]; simp
    have hkeys : PyDict.keys (done ++ [(k, av)]) = PyDict.keys done ++ [k] := by simp [PyDict.keys]
    have hcurr : ∀ v, v ∈ av.values → ∀ k' v', PyDict.get? (PyDict.set st.curr k v) k' = some v' →
        ∃ av', PyDict.get? (done ++ [(k, av)]) k' = some av' ∧ v' ∈ av'.values := by
      intro v hv k' v' h'
      rw [PyDict.get?_set] at h'
      split at h'
      · rename_i e
        subst e
        injection h' with h'
        subst h'
        exact ⟨av, hgk, hv⟩
      · obtain ⟨av', h1, h2⟩ := hi.curr k' v' h'
        exact ⟨av', hget _ _ h1, h2⟩
    cases av with
    | fixed v =>
      unfold iterInit at h
      have := iterInit_inv le rest (done ++ [(k, .fixed v)]) { st with curr := PyDict.set st.curr k v } st' hn' ?_ h
      · simpa using this
      · refine ⟨?_, hcurr v (by simp [ArgVal.values]), ?_, ?_⟩
        · dsimp only; rw [keys_get?_set hkc, hi.keys, hkeys]
        · intro k' l hl
          obtain ⟨av', h1, h2⟩ := hi.vals k' l hl
          exact ⟨av', hget _ _ h1, h2⟩
        · intro q hq
          obtain ⟨h1, h2⟩ := hi.idx q hq
          exact ⟨h1, by rw [hkeys]; exact List.mem_append_left _ h2⟩
    | tune l =>
      unfold iterInit at h
      cases hv : (l.mergeSort le)[l.length / 2]? with
      | none => rw [hv] at h; cases h
      | some v =>
        rw [hv] at h
        dsimp only at h
        have hvm : v ∈ l := by
          have := List.mem_of_getElem? hv
          exact (List.mergeSort_perm l le).mem_iff.1 this
        have hlt : l.length / 2 < (l.mergeSort le).length := (List.getElem?_eq_some_iff.1 hv).1
        have := iterInit_inv le rest (done ++ [(k, .tune l)]) _ st' hn' ?_ h
        · simpa using this
        · refine ⟨?_, hcurr v hvm, ?_, ?_⟩
          · dsimp only; rw [keys_get?_set hkc, hi.keys, hkeys]
          · intro k' l' hl'
            dsimp only at hl'
            rw [PyDict.get?_set] at hl'
            split at hl'
            · rename_i e
              subst e
              injection hl' with hl'
              subst hl'
              exact ⟨_, hgk, fun w hw => (List.mergeSort_perm l le).mem_iff.1 hw⟩
            · obtain ⟨av', h1, h2⟩ := hi.vals k' l' hl'
              exact ⟨av', hget _ _ h1, h2⟩
          · intro q hq
            dsimp only at hq ⊢
            rw [PyDict.get?_set]
            by_cases hqk : k = q.1
            · rw [if_pos hqk]
              have hq2 : q.2 = l.length / 2 := by
                have hni : k ∉ PyDict.keys st.idx := by
                  intro hm
                  obtain ⟨q', hq', e⟩ := List.mem_map.1 hm
                  exact hk (e ▸ (hi.idx q' hq').2)
                rw [PyDict.set_of_not_mem hni] at hq
                rcases List.mem_append.1 hq with e | e
                · exact absurd (hqk ▸ List.mem_map_of_mem e) hni
                · rw [List.mem_singleton.1 e]
              rw [hq2]
              exact ⟨hlt, by rw [hkeys, ← hqk]; simp⟩
            · rw [if_neg hqk]
              have hni : k ∉ PyDict.keys st.idx := by
                intro hm
                obtain ⟨q', hq', e⟩ := List.mem_map.1 hm
                exact hk (e ▸ (hi.idx q' hq').2)
              rw [PyDict.set_of_not_mem hni] at hq
              rcases List.mem_append.1 hq with e | e
              · obtain ⟨h1, h2⟩ := hi.idx q e
                exact ⟨h1, by rw [hkeys]; exact List.mem_append_left _ h2⟩
              · exact absurd (by rw [List.mem_singleton.1 e]) hqk

theorem iterStart_inv {le : V → V → Bool} {args : PyDict K (ArgVal V)} {st : IterSt K V P}
    (hn : (PyDict.keys args).Nodup) (h : iterStart le args = .ok st) :
    IterInv args st ∧ st.best = none ∧ st.count = 0 := by
  have := iterInit_inv le args [] ⟨[], [], [], none, 0⟩ st hn
    ⟨rfl, fun k v h => by simp at h, fun k l h => by simp at h, fun q hq => by simp at hq⟩ h
  simpa using this

theorem iterNext_inv {isBest : P → P → Bool} {perf : PyDict K V → P} {reached : P → Bool} {maxIter : Nat}
    {inc : Bool} {args : PyDict K (ArgVal V)} {st st' : IterSt K V P} {c : PyDict K V} (hi : IterInv args st)
    (h : iterNext isBest perf reached maxIter inc st = .ok (st', c)) :
    IterInv args st' ∧ c = st'.curr ∧ st'.count = st.count + 1 ∧ (st.best = none ∨ st.count < maxIter) := by
  unfold iterNext at h
  cases hb : st.best with
  | none =>
    rw [hb] at h
    injection h with h
    injection h with h1 h2
    subst h1
    exact ⟨⟨hi.keys, hi.curr, hi.vals, hi.idx⟩, h2.symm, rfl, .inl rfl⟩
  | some b =>
    rw [hb] at h
    dsimp only at h
    split at h
    · cases h
    · rename_i hc
      have hcount : st.count < maxIter := by
        simp only [Bool.or_eq_true, decide_eq_true_eq, ge_iff_le, not_or, Nat.not_le] at hc
        exact hc.1
      obtain ⟨t1, t2⟩ := trials_idx (isBest := isBest) (perf := perf) (base := b.2) (p := b.1) st.idx
        (fun q hq => (hi.idx q hq).1)
      have hidx : ∀ q ∈ (trials isBest perf b.2 b.1 st.vals st.idx).2,
          q.2 < ((PyDict.get? st.vals q.1).getD []).length ∧ q.1 ∈ PyDict.keys args := by
        intro q hq
        refine ⟨t1 q hq, ?_⟩
        have : q.1 ∈ PyDict.keys (trials isBest perf b.2 b.1 st.vals st.idx).2 := List.mem_map_of_mem hq
        rw [t2] at this
        obtain ⟨q', hq', e⟩ := List.mem_map.1 this
        rw [← e]
        exact (hi.idx q' hq').2
      unfold iterMove at h
      split at h
      · split at h
        · injection h with h
          injection h with h1 h2
          subst h1
          exact ⟨⟨hi.keys, hi.curr, hi.vals, hidx⟩, h2.symm, rfl, .inr hcount⟩
        · cases h
      · injection h with h
        injection h with h1 h2
        subst h1
        refine ⟨⟨?_, ?_, hi.vals, hidx⟩, h2.symm, rfl, .inr hcount⟩
        · dsimp only
          rw [keys_updateArgs, hi.keys]
          intro q hq
          rw [hi.keys]
          obtain ⟨q', hq', e⟩ := List.mem_map.1 (trials_keys st.idx hq)
          rw [← e]
          exact (hi.idx q' hq').2
        · intro k v hv
          dsimp only at hv
          rcases get?_updateArgs st.curr (trials isBest perf b.2 b.1 st.vals st.idx).1 k with e | ⟨w, hw, e⟩
          · exact hi.curr k v (e ▸ hv)
          · rw [e] at hv
            injection hv with hv
            subst hv
            have hm := trials_values st.idx hw
            cases hl : PyDict.get? st.vals k with
            | none => rw [hl] at hm; simp at hm
            | some l =>
              rw [hl] at hm
              obtain ⟨av, h1, h2⟩ := hi.vals k l hl
              exact ⟨av, h1, h2 w hm⟩

theorem iterRun_inv {isBest : P → P → Bool} {perf : PyDict K V → P} {reached : P → Bool} {maxIter : Nat}
    {inc : Bool} {args : PyDict K (ArgVal V)} : ∀ (n : Nat) {st : IterSt K V P}, IterInv args st →
    IterInv args (iterRun isBest perf reached maxIter inc n st).2 ∧
    ∀ c ∈ (iterRun isBest perf reached maxIter inc n st).1, PyDict.keys c = PyDict.keys args ∧
      ∀ k v, PyDict.get? c k = some v → ∃ av, PyDict.get? args k = some av ∧ v ∈ av.values
  | 0, st, hi => ⟨hi, fun c hc => by simp [iterRun] at hc⟩
  | n + 1, st, hi => by
    unfold iterRun
    cases h : iterNext isBest perf reached maxIter inc st with
    | error e => exact ⟨hi, fun c hc => by simp at hc⟩
    | ok q =>
      obtain ⟨st', c⟩ := q
      obtain ⟨i1, i2, _, _⟩ := iterNext_inv hi h
      obtain ⟨j1, j2⟩ := iterRun_inv (isBest := isBest) (perf := perf) (reached := reached) (maxIter := maxIter)
        (inc := inc) n i1
      refine ⟨j1, fun c' hc' => ?_⟩
      rcases List.mem_cons.1 hc' with e | e
      · rw [e]
        dsimp only
        rw [i2]
        exact ⟨i1.keys, i1.curr⟩
      · exact j2 c' e

/-- C75. Every argument set selected has exactly the arguments given, each with its fixed value or one of
its values to tune, whatever the performances are. -/
theorem C75_values {le : V → V → Bool} {isBest : P → P → Bool} {perf : PyDict K V → P} {reached : P → Bool}
    {maxIter : Nat} {inc : Bool} {args : PyDict K (ArgVal V)} {st : IterSt K V P}
    (hn : (PyDict.keys args).Nodup) (h : iterStart le args = .ok st) (n : Nat) {c : PyDict K V}
    (hc : c ∈ (iterRun isBest perf reached maxIter inc n st).1) :
    PyDict.keys c = PyDict.keys args ∧
      ∀ k v, PyDict.get? c k = some v → ∃ av, PyDict.get? args k = some av ∧ v ∈ av.values :=
  (iterRun_inv n (iterStart_inv hn h).1).2 c hc

/-- C75. The first set has the middle one of the sorted values of each argument. -/
theorem C75_first {le : V → V → Bool} {isBest : P → P → Bool} {perf : PyDict K V → P} {reached : P → Bool}
    {maxIter : Nat} {inc : Bool} {k : K} {l : List V} {st : IterSt K V P}
    (h : iterStart le [(k, .tune l)] = .ok st) (n : Nat) :
    ∃ v, (l.mergeSort le)[l.length / 2]? = some v ∧
      (iterRun isBest perf reached maxIter inc (n + 1) st).1.head? = some [(k, v)] := by
  unfold iterStart iterInit at h
  cases hv : (l.mergeSort le)[l.length / 2]? with
  | none => rw [hv] at h; cases h
  | some v =>
    rw [hv] at h
    dsimp only at h
    unfold iterInit at h
    injection h with h
    subst h
    exact ⟨v, rfl, rfl⟩

theorem iterNext_best {isBest : P → P → Bool} {perf : PyDict K V → P} {reached : P → Bool} {maxIter : Nat}
    {inc : Bool} {st st' : IterSt K V P} {c : PyDict K V}
    (h : iterNext isBest perf reached maxIter inc st = .ok (st', c)) :
    (st.best = none ∧ c = st.curr ∧ st'.best = some (perf c, c) ∧ st'.curr = st.curr) ∨
    (∃ b, st.best = some b ∧ st'.best = some b ∧ c = st.curr ∧ st'.curr = st.curr ∧ inc = true) ∨
    (∃ b, st.best = some b ∧ c = st'.curr ∧ st'.best = some (betterOf isBest perf b c)) := by
  unfold iterNext at h
  cases hb : st.best with
  | none =>
    rw [hb] at h
    injection h with h
    injection h with h1 h2
    subst h1
    subst h2
    exact .inl ⟨rfl, rfl, rfl, rfl⟩
  | some b =>
    rw [hb] at h
    dsimp only at h
    split at h
    · cases h
    · unfold iterMove at h
      split at h
      · split at h
        · rename_i hinc
          injection h with h
          injection h with h1 h2
          subst h1
          exact .inr (.inl ⟨b, rfl, hb, h2.symm, rfl, hinc⟩)
        · cases h
      · injection h with h
        injection h with h1 h2
        subst h1
        subst h2
        exact .inr (.inr ⟨b, rfl, rfl, rfl⟩)

theorem iterNext_best_ne {isBest : P → P → Bool} {perf : PyDict K V → P} {reached : P → Bool} {maxIter : Nat}
    {inc : Bool} {st st' : IterSt K V P} {c : PyDict K V}
    (h : iterNext isBest perf reached maxIter inc st = .ok (st', c)) : st'.best ≠ none := by
  rcases iterNext_best h with ⟨_, _, e, _⟩ | ⟨b, _, e, _⟩ | ⟨b, _, _, e⟩ <;> rw [e] <;> simp

theorem iterRun_count {isBest : P → P → Bool} {perf : PyDict K V → P} {reached : P → Bool} {maxIter : Nat}
    {inc : Bool} {args : PyDict K (ArgVal V)} : ∀ (n : Nat) {st : IterSt K V P}, IterInv args st →
    st.best ≠ none →
    (iterRun isBest perf reached maxIter inc n st).1.length + st.count ≤ max st.count maxIter
  | 0, st, hi, _ => by simp [iterRun]; omega
  | n + 1, st, hi, hb => by
    unfold iterRun
    cases h : iterNext isBest perf reached maxIter inc st with
    | error e => simp; omega
    | ok q =>
      obtain ⟨st', c⟩ := q
      obtain ⟨i1, i2, i3, i4⟩ := iterNext_inv hi h
      have := iterRun_count (isBest := isBest) (perf := perf) (reached := reached) (maxIter := maxIter)
        (inc := inc) n i1 (iterNext_best_ne h)
      have h4 := i4.resolve_left hb
      simp only [List.length_cons]
      omega

/-- C75. At most `maxIterations` sets are selected (at least one is, whatever the limit). -/
theorem C75_limit {le : V → V → Bool} {isBest : P → P → Bool} {perf : PyDict K V → P} {reached : P → Bool}
    {maxIter : Nat} {inc : Bool} {args : PyDict K (ArgVal V)} {st : IterSt K V P}
    (hn : (PyDict.keys args).Nodup) (h : iterStart le args = .ok st) (n : Nat) :
    (iterRun isBest perf reached maxIter inc n st).1.length ≤ max 1 maxIter := by
  obtain ⟨hi, hb, hc⟩ := iterStart_inv hn h
  cases n with
  | zero => simp [iterRun]
  | succ n =>
    unfold iterRun
    cases h : iterNext isBest perf reached maxIter inc st with
    | error e => simp
    | ok q =>
      obtain ⟨st', c⟩ := q
      obtain ⟨i1, i2, i3, i4⟩ := iterNext_inv hi h
      have := iterRun_count (isBest := isBest) (perf := perf) (reached := reached) (maxIter := maxIter)
        (inc := inc) n i1 (iterNext_best_ne h)
      simp only [List.length_cons]
      omega

/-! ## The best set -/

theorem iterRun_best {isBest : P → P → Bool} {perf : PyDict K V → P} {reached : P → Bool} {maxIter : Nat}
    {inc : Bool} (hirr : ∀ p, isBest p p = false)
    (htr : ∀ p q r, isBest p q = true → isBest q r = true → isBest p r = true) : ∀ (n : Nat)
    {st : IterSt K V P} (done : List (PyDict K V)),
    (st.best = none → done = []) → (st.best ≠ none → st.curr ∈ done) →
    (∀ b, st.best = some b → b.1 = perf b.2 ∧ b.2 ∈ done ∧ ∀ c ∈ done, isBest (perf c) b.1 = false) →
    ∀ b, (iterRun isBest perf reached maxIter inc n st).2.best = some b →
      b.1 = perf b.2 ∧ b.2 ∈ done ++ (iterRun isBest perf reached maxIter inc n st).1 ∧
      ∀ c ∈ done ++ (iterRun isBest perf reached maxIter inc n st).1, isBest (perf c) b.1 = false
  | 0, st, done, _, _, hb => by
    intro b h
    simpa [iterRun] using hb b h
  | n + 1, st, done, hd, hcur, hb => by
    unfold iterRun
    cases h : iterNext isBest perf reached maxIter inc st with
    | error e => intro b hb'; simpa using hb b hb'
    | ok q =>
      obtain ⟨st', c⟩ := q
      dsimp only
      have key := iterRun_best (perf := perf) (reached := reached) (maxIter := maxIter) (inc := inc) hirr htr n (st := st')
        (done ++ [c]) (fun e => absurd e (iterNext_best_ne h)) ?_ ?_
      · simpa using key
      · intro _
        rcases iterNext_best h with ⟨_, e1, _, e2⟩ | ⟨b, hb', _, e1, e2, _⟩ | ⟨b, _, e1, _⟩
        · rw [e2, e1]; simp
        · rw [e2, e1]; simp
        · rw [e1]; simp
      · intro b' hb'
        rcases iterNext_best h with ⟨e0, e1, e2, _⟩ | ⟨b, e0, e2, e1, _, _⟩ | ⟨b, e0, e1, e2⟩
        · rw [e2] at hb'
          injection hb' with hb'
          subst hb'
          rw [hd e0]
          refine ⟨rfl, by simp, fun c' hc' => ?_⟩
          have e : c' = c := by simpa using hc'
          rw [e]
          exact hirr _
        · rw [e2] at hb'
          injection hb' with hb'
          subst hb'
          obtain ⟨h1, h2, h3⟩ := hb b e0
          refine ⟨h1, List.mem_append_left _ h2, fun c' hc' => ?_⟩
          rcases List.mem_append.1 hc' with m | m
          · exact h3 c' m
          · rw [List.mem_singleton.1 m, e1]
            exact h3 _ (hcur (by rw [e0]; simp))
        · rw [e2] at hb'
          injection hb' with hb'
          subst hb'
          obtain ⟨h1, h2, h3⟩ := hb b e0
          unfold betterOf
          split
          · rename_i hlt
            refine ⟨rfl, by simp, fun c' hc' => ?_⟩
            rcases List.mem_append.1 hc' with m | m
            · cases hcc : isBest (perf c') (perf c) with
              | false => rfl
              | true => exact absurd (htr _ _ _ hcc hlt) (by rw [h3 c' m]; simp)
            · rw [List.mem_singleton.1 m]; exact hirr _
          · rename_i hlt
            refine ⟨h1, List.mem_append_left _ h2, fun c' hc' => ?_⟩
            rcases List.mem_append.1 hc' with m | m
            · exact h3 c' m
            · rw [List.mem_singleton.1 m]; simpa using hlt

/-- C75. The set the selector keeps as the best is one of the sets selected, with its performance, and no
selected set is better. -/
theorem C75_best {le : V → V → Bool} {isBest : P → P → Bool} {perf : PyDict K V → P} {reached : P → Bool}
    {maxIter : Nat} {inc : Bool} {args : PyDict K (ArgVal V)} {st : IterSt K V P}
    (hirr : ∀ p, isBest p p = false)
    (htr : ∀ p q r, isBest p q = true → isBest q r = true → isBest p r = true)
    (hn : (PyDict.keys args).Nodup) (h : iterStart le args = .ok st) (n : Nat) {p : P} {a : PyDict K V}
    (hb : (iterRun isBest perf reached maxIter inc n st).2.best = some (p, a)) :
    p = perf a ∧ a ∈ (iterRun isBest perf reached maxIter inc n st).1 ∧
    ∀ c ∈ (iterRun isBest perf reached maxIter inc n st).1, isBest (perf c) p = false := by
  obtain ⟨_, e, _⟩ := iterStart_inv hn h
  have := iterRun_best (reached := reached) (maxIter := maxIter) (inc := inc) hirr htr n (st := st) []
    (fun _ => rfl) (fun h => absurd e h) (fun b hb => by rw [e] at hb; cases hb) (p, a) hb
  simpa using this

/-! ## One argument to tune -/

/-- Never are both neighbours of a value better than the value itself. -/
def NoValley (isBest : P → P → Bool) (perf : PyDict K V → P) (k : K) (values : List V) : Prop :=
  ∀ (d : PyDict K V) (i : Nat) (lo hi : V), PyDict.get? d k = values[i + 1]? → values[i]? = some lo →
    values[i + 2]? = some hi →
    ¬ (isBest (perf (PyDict.set d k lo)) (perf d) = true ∧ isBest (perf (PyDict.set d k hi)) (perf d) = true)

/-- The state with one argument to tune. -/
structure OneInv (perf : PyDict K V → P) (k : K) (values : List V) (st : IterSt K V P) : Prop where
  pos : ∃ i v, st.idx = [(k, i)] ∧ values[i]? = some v ∧ PyDict.get? st.curr k = some v
  vals : PyDict.get? st.vals k = some values
  best : ∀ b, st.best = some b → b = (perf st.curr, st.curr)

theorem iterInit_fixed (le : V → V → Bool) : ∀ (l : PyDict K (ArgVal V)) (rest : PyDict K (ArgVal V))
    (st : IterSt K V P), (∀ q ∈ l, ∃ v, q.2 = .fixed v) →
    ∃ c, iterInit le (l ++ rest) st = iterInit le rest { st with curr := c } ∧
      ∀ k, k ∉ PyDict.keys l → PyDict.get? c k = PyDict.get? st.curr k
  | [], rest, st, _ => ⟨st.curr, rfl, fun _ _ => rfl⟩
  | (k', av) :: l, rest, st, h => by
    obtain ⟨v, e⟩ := h _ List.mem_cons_self
    dsimp only at e
    subst e
    obtain ⟨c, h1, h2⟩ := iterInit_fixed le l rest { st with curr := PyDict.set st.curr k' v }
      (fun q hq => h q (List.mem_cons_of_mem _ hq))
    refine ⟨c, h1, fun k hk => ?_⟩
    rw [PyDict.keys_cons, List.mem_cons, not_or] at hk
    rw [h2 k hk.2, PyDict.get?_set, if_neg (fun e => hk.1 e.symm)]

theorem iterStart_one {le : V → V → Bool} {perf : PyDict K V → P} {pre post : PyDict K (ArgVal V)} {k : K}
    {l : List V} {st : IterSt K V P} (hf : ∀ q ∈ pre ++ post, ∃ v, q.2 = .fixed v)
    (hn : (PyDict.keys (pre ++ (k, .tune l) :: post)).Nodup)
    (h : iterStart le (pre ++ (k, .tune l) :: post) = .ok st) : OneInv perf k (l.mergeSort le) st := by
  unfold iterStart at h
  obtain ⟨c, h1, h2⟩ := iterInit_fixed (P := P) le pre ((k, .tune l) :: post) ⟨[], [], [], none, 0⟩
    (fun q hq => hf q (List.mem_append_left _ hq))
  rw [h1] at h
  unfold iterInit at h
  have hk : k ∉ PyDict.keys post := by
    unfold PyDict.keys at hn ⊢
    rw [List.map_append, List.nodup_append] at hn
    exact (List.nodup_cons.1 hn.2.1).1
  cases hv : (l.mergeSort le)[l.length / 2]? with
  | none => rw [hv] at h; cases h
  | some v =>
    rw [hv] at h
    dsimp only at h
    obtain ⟨c', h3, h4⟩ := iterInit_fixed (P := P) le post []
      ⟨PyDict.set [] k (l.length / 2), PyDict.set [] k (l.mergeSort le), PyDict.set c k v, none, 0⟩
      (fun q hq => hf q (List.mem_append_right _ hq))
    rw [List.append_nil] at h3
    rw [h3] at h
    injection h with h
    subst h
    refine ⟨⟨l.length / 2, v, rfl, hv, ?_⟩, ?_, fun b hb => by cases hb⟩
    · dsimp only
      rw [h4 k hk]; simp
    · dsimp only
      simp

theorem trials_one {isBest : P → P → Bool} {perf : PyDict K V → P} {base : PyDict K V} {p : P}
    {vals : PyDict K (List V)} {k : K} {values : List V} {i : Nat} (hv : PyDict.get? vals k = some values) :
    (trial isBest perf base p k values i = none ∧ trials isBest perf base p vals [(k, i)] = ([], [(k, i)])) ∨
    ∃ v j, trial isBest perf base p k values i = some (v, j) ∧
      trials isBest perf base p vals [(k, i)] = ([(k, v)], [(k, j)]) := by
  unfold trials
  dsimp only
  rw [hv]
  cases ht : trial isBest perf base p k values i with
  | none => left; simp [ht, trials]
  | some q =>
    obtain ⟨v, j⟩ := q
    right
    exact ⟨v, j, rfl, by simp [ht, trials]⟩

theorem lower_succ {values : List V} {i : Nat} {w : V} (h : lower values i = some w) :
    ∃ j, i = j + 1 ∧ values[j]? = some w := by
  unfold lower at h
  split at h
  · exact ⟨i - 1, by omega, h⟩
  · cases h

/-- Without valleys the new index is that of the value taken. -/
theorem trial_noValley {isBest : P → P → Bool} {perf : PyDict K V → P} {base : PyDict K V} {k : K}
    {values : List V} {i : Nat} {v : V} {j : Nat} (hv : NoValley isBest perf k values)
    (hb : PyDict.get? base k = values[i]?)
    (h : trial isBest perf base (perf base) k values i = some (v, j)) :
    values[j]? = some v ∧ isBest (perf (PyDict.set base k v)) (perf base) = true := by
  refine ⟨?_, (trial_some h).2.1⟩
  unfold trial at h
  cases hl : neighbour isBest perf base (perf base) k (lower values i) with
  | none =>
    cases hh : neighbour isBest perf base (perf base) k values[i + 1]? with
    | none => rw [hl, hh] at h; cases h
    | some q =>
      obtain ⟨w, r⟩ := q
      rw [hl, hh] at h
      injection h with h
      injection h with e1 e2
      subst e1; subst e2
      exact (neighbour_some hh).1
  | some q =>
    obtain ⟨lo, pl⟩ := q
    obtain ⟨l1, l2, l3⟩ := neighbour_some hl
    obtain ⟨i', rfl, l4⟩ := lower_succ l1
    cases hh : neighbour isBest perf base (perf base) k values[i' + 1 + 1]? with
    | none =>
      rw [hl, hh] at h
      injection h with h
      injection h with e1 e2
      subst e1; subst e2
      exact l4
    | some q =>
      obtain ⟨w, r⟩ := q
      obtain ⟨h1, h2, h3⟩ := neighbour_some hh
      exact absurd ⟨by rw [← l2]; exact l3, by rw [← h2]; exact h3⟩ (hv base i' lo w hb l4 h1)

theorem iterNext_one {isBest : P → P → Bool} {perf : PyDict K V → P} {reached : P → Bool} {maxIter : Nat}
    {k : K} {values : List V} {st st' : IterSt K V P} {c : PyDict K V} (hv : NoValley isBest perf k values)
    (hi : OneInv perf k values st) (h : iterNext isBest perf reached maxIter false st = .ok (st', c)) :
    OneInv perf k values st' := by
  obtain ⟨⟨i, v, p1, p2, p3⟩, hvals, hbest⟩ := hi
  unfold iterNext at h
  cases hb : st.best with
  | none =>
    rw [hb] at h
    injection h with h
    injection h with h1 h2
    subst h1
    exact ⟨⟨i, v, p1, p2, p3⟩, hvals, fun b hb => by injection hb with hb; exact hb.symm⟩
  | some b =>
    have := hbest b hb
    subst this
    rw [hb] at h
    dsimp only at h
    split at h
    · cases h
    · unfold iterMove at h
      rw [p1] at h
      rcases trials_one (isBest := isBest) (perf := perf) (base := st.curr) (p := perf st.curr) (i := i) hvals
        with ⟨_, e⟩ | ⟨w, j, ht, e⟩
      · rw [e] at h
        simp at h
      · rw [e] at h
        obtain ⟨t1, t2⟩ := trial_noValley hv (p3.trans p2.symm) ht
        have hu : updateArgs st.curr [(k, w)] = PyDict.set st.curr k w := rfl
        rw [if_neg (by simp)] at h
        injection h with h
        injection h with h1 h2
        subst h1
        refine ⟨⟨j, w, rfl, t1, ?_⟩, hvals, ?_⟩
        · dsimp only
          rw [hu]; simp
        · intro b hb
          dsimp only at hb ⊢
          injection hb with hb
          subst hb
          rw [hu]
          unfold betterOf
          rw [if_pos t2]

theorem iterRun_one {isBest : P → P → Bool} {perf : PyDict K V → P} {reached : P → Bool} {maxIter : Nat}
    {k : K} {values : List V} (hv : NoValley isBest perf k values) : ∀ (n : Nat) {st : IterSt K V P},
    OneInv perf k values st → OneInv perf k values (iterRun isBest perf reached maxIter false n st).2
  | 0, _, hi => hi
  | n + 1, st, hi => by
    unfold iterRun
    cases h : iterNext isBest perf reached maxIter false st with
    | error e => exact hi
    | ok q =>
      obtain ⟨st', c⟩ := q
      exact iterRun_one hv n (iterNext_one hv hi h)

theorem iterRun_length {isBest : P → P → Bool} {perf : PyDict K V → P} {reached : P → Bool} {maxIter : Nat}
    {inc : Bool} {args : PyDict K (ArgVal V)} : ∀ (n : Nat) {st : IterSt K V P}, IterInv args st →
    (iterRun isBest perf reached maxIter inc n st).2.count =
      st.count + (iterRun isBest perf reached maxIter inc n st).1.length
  | 0, st, hi => rfl
  | n + 1, st, hi => by
    unfold iterRun
    cases h : iterNext isBest perf reached maxIter inc st with
    | error e => rfl
    | ok q =>
      obtain ⟨st', c⟩ := q
      obtain ⟨i1, i2, i3, i4⟩ := iterNext_inv hi h
      have := iterRun_length (isBest := isBest) (perf := perf) (reached := reached) (maxIter := maxIter)
        (inc := inc) n i1
      simp only [List.length_cons]
      omega

/-- C75 (partial: one argument to tune, learners that cannot be trained incrementally, and performances that
never improve to both sides of a value). When the selection ends before `maxIterations` sets and before
the threshold, the best set is a local optimum: neither neighbour of its value performs better. -/
theorem C75_local_optimum_partial {le : V → V → Bool} {isBest : P → P → Bool} {perf : PyDict K V → P}
    {reached : P → Bool} {maxIter : Nat} {pre post : PyDict K (ArgVal V)} {k : K} {l : List V}
    {st : IterSt K V P} (hf : ∀ q ∈ pre ++ post, ∃ v, q.2 = .fixed v)
    (hn : (PyDict.keys (pre ++ (k, .tune l) :: post)).Nodup)
    (h : iterStart le (pre ++ (k, .tune l) :: post) = .ok st)
    (hv : NoValley isBest perf k (l.mergeSort le)) (n : Nat) {p : P} {a : PyDict K V}
    (hb : (iterRun isBest perf reached maxIter false n st).2.best = some (p, a))
    (hr : reached p = false)
    (hl : (iterRun isBest perf reached maxIter false n st).1.length < maxIter)
    (hstop : iterNext isBest perf reached maxIter false (iterRun isBest perf reached maxIter false n st).2 =
      .error .StopIteration) :
    ∃ (i : Nat) (v : V), PyDict.get? a k = some v ∧ (l.mergeSort le)[i]? = some v ∧
      ∀ (j : Nat) (w : V), (j + 1 = i ∨ j = i + 1) → (l.mergeSort le)[j]? = some w →
        isBest (perf (PyDict.set a k w)) (perf a) = false := by
  obtain ⟨hi, _, hc⟩ := iterStart_inv hn h
  have hlen := iterRun_length (isBest := isBest) (perf := perf) (reached := reached) (maxIter := maxIter)
    (inc := false) n hi
  have h1 := iterRun_one (reached := reached) (maxIter := maxIter) hv n (iterStart_one (perf := perf) hf hn h)
  generalize iterRun isBest perf reached maxIter false n st = r at *
  obtain ⟨⟨i, v, p1, p2, p3⟩, hvals, hbest⟩ := h1
  have e := hbest _ hb
  injection e with e1 e2
  subst e1; subst e2
  refine ⟨i, v, p3, p2, ?_⟩
  unfold iterNext at hstop
  rw [hb] at hstop
  dsimp only at hstop
  rw [if_neg (by simp only [hr, Bool.or_false, decide_eq_true_eq]; omega)] at hstop
  unfold iterMove at hstop
  rw [p1] at hstop
  rcases trials_one (isBest := isBest) (perf := perf) (base := r.2.curr) (p := perf r.2.curr) (i := i) hvals
    with ⟨ht, _⟩ | ⟨w, j, _, e⟩
  · unfold trial at ht
    cases hlo : neighbour isBest perf r.2.curr (perf r.2.curr) k (lower (l.mergeSort le) i) with
    | some q =>
      obtain ⟨lo, pl⟩ := q
      rw [hlo] at ht
      cases hh : neighbour isBest perf r.2.curr (perf r.2.curr) k (l.mergeSort le)[i + 1]? with
      | none => rw [hh] at ht; cases ht
      | some q =>
        obtain ⟨hi, ph⟩ := q
        rw [hh] at ht
        replace ht : (if isBest ph pl then some (lo, i + 1) else some (hi, i - 1)) = none := ht
        split at ht <;> cases ht
    | none =>
      rw [hlo] at ht
      cases hh : neighbour isBest perf r.2.curr (perf r.2.curr) k (l.mergeSort le)[i + 1]? with
      | some q => obtain ⟨hi, ph⟩ := q; rw [hh] at ht; cases ht
      | none =>
        intro j w hj hw
        rcases hj with hj | hj
        · refine neighbour_none hlo ?_
          unfold lower
          rw [if_pos (by omega)]
          rw [show i - 1 = j by omega]
          exact hw
        · subst hj
          exact neighbour_none hh hw
  · rw [e] at hstop
    simp at hstop

/-! ## Witnesses -/

/-- The performance of a single argument `p`. -/
def perfOf (f : Nat → Nat) (d : PyDict String Nat) : Nat := f ((PyDict.get? d "p").getD 0)

/-- Values 1 to 5, from 3: performances 0, 1, 0, 2, 9. -/
def valley : Nat → Nat
  | 2 => 1
  | 4 => 2
  | 5 => 9
  | _ => 0

/-- Performances 1, 2, 3, 4, 0. -/
def hill : Nat → Nat
  | 5 => 0
  | n => n

/-- A single-argument start state. -/
def start1 : IterSt String Nat Nat := ⟨[("p", 2)], [("p", [1, 2, 3, 4, 5])], [("p", 3)], none, 0⟩

theorem start1_eq : iterStart (P := Nat) (fun a b => decide (a ≤ b)) [("p", .tune [5, 3, 1, 2, 4])] = .ok start1 := by
  simp [iterStart, iterInit, start1, List.mergeSort, List.MergeSort.Internal.splitInTwo, PyDict.set]

/-- A case for the theorems above: from 3 the selection moves to 4 and ends there. -/
example : (iterRun (fun p q => decide (p > q)) (perfOf hill) (fun _ => false) 100 false 10 start1).1 =
      [[("p", 3)], [("p", 4)]] ∧
    (iterRun (fun p q => decide (p > q)) (perfOf hill) (fun _ => false) 100 false 10 start1).2.best =
      some (4, [("p", 4)]) := by
  refine ⟨?_, ?_⟩ <;> decide +kernel

example : iterNext (fun p q => decide (p > q)) (perfOf hill) (fun _ => false) 100 false
    (iterRun (fun p q => decide (p > q)) (perfOf hill) (fun _ => false) 100 false 10 start1).2 =
    .error .StopIteration := rfl

theorem perfOf_hill_noValley : NoValley (fun p q => decide (p > q)) (perfOf hill) "p" [1, 2, 3, 4, 5] := by
  intro d i lo hi h1 h2 h3 ⟨h4, h5⟩
  simp only [perfOf, PyDict.get?_set_self, Option.getD_some, decide_eq_true_eq, h1] at h4 h5
  rcases i with _ | _ | _ | _ | i
  · simp at h2 h3; subst h2; subst h3; simp [hill] at h4
  · simp at h2 h3; subst h2; subst h3; simp [hill] at h4
  · simp at h2 h3; subst h2; subst h3; simp [hill] at h4
  · simp at h3
  · simp at h3

/-- C75 violated: with performances 0, 1, 0, 2, 9 for the values 1 to 5, both neighbours of 3 are better;
the worse one, 2, is selected, while the position moves to 4. The next candidates are the neighbours of 4,
that is 3 and 5, so 5 is compared although 2 was selected; then the position is beyond 5. With the
performances 0, 1, 0, 2, 0, the selection ends with 2 (performance 1) though 4 with performance 2 was
measured in the first step. -/
theorem C75_both_better_violated :
    (iterRun (fun p q => decide (p > q)) (perfOf valley) (fun _ => false) 100 false 2 start1).1 =
      [[("p", 3)], [("p", 2)]] ∧
    (iterRun (fun p q => decide (p > q)) (perfOf valley) (fun _ => false) 100 false 2 start1).2.idx =
      [("p", 3)] ∧
    (iterRun (fun p q => decide (p > q)) (perfOf (fun n => if n = 5 then 0 else valley n)) (fun _ => false) 100
      false 100 start1).1 = [[("p", 3)], [("p", 2)]] ∧
    (iterRun (fun p q => decide (p > q)) (perfOf (fun n => if n = 5 then 0 else valley n)) (fun _ => false) 100
      false 100 start1).2.best = some (1, [("p", 2)]) ∧
    perfOf valley [("p", 4)] = 2 := by
  refine ⟨?_, ?_, ?_, ?_, ?_⟩ <;> decide +kernel

/-- Two arguments: each of (2, 1) and (1, 2) is better than (1, 1), (2, 2) is not. -/
def cross (d : PyDict String Nat) : Nat :=
  match (PyDict.get? d "p").getD 0, (PyDict.get? d "q").getD 0 with
  | 1, 1 => 10
  | 2, 1 => 11
  | 1, 2 => 11
  | _, _ => 0

/-- C75 violated with two arguments: every improving move is made at once. From (p, q) = (1, 1) with
performance 10, the changes to p = 2 and to q = 2 each measure 11, and (2, 2), with performance 0, is
selected; the best set returned by the tuning is (1, 1) with 10. -/
theorem C75_joint_move_violated :
    iterStart (P := Nat) (fun a b => decide (a ≤ b)) [("p", .tune [0, 1, 2]), ("q", .tune [0, 1, 2])] =
      .ok ⟨[("p", 1), ("q", 1)], [("p", [0, 1, 2]), ("q", [0, 1, 2])], [("p", 1), ("q", 1)], none, 0⟩ ∧
    (iterRun (fun p q => decide (p > q)) cross (fun _ => false) 100 false 100
      ⟨[("p", 1), ("q", 1)], [("p", [0, 1, 2]), ("q", [0, 1, 2])], [("p", 1), ("q", 1)], none, 0⟩).1 =
      [[("p", 1), ("q", 1)], [("p", 2), ("q", 2)]] ∧
    (iterRun (fun p q => decide (p > q)) cross (fun _ => false) 100 false 100
      ⟨[("p", 1), ("q", 1)], [("p", [0, 1, 2]), ("q", [0, 1, 2])], [("p", 1), ("q", 1)], none, 0⟩).2.best =
      some (10, [("p", 1), ("q", 1)]) ∧
    cross [("p", 2), ("q", 1)] = 11 := by
  refine ⟨?_, ?_, ?_, ?_⟩
  · simp [iterStart, iterInit, List.mergeSort, List.MergeSort.Internal.splitInTwo, PyDict.set]
  all_goals decide +kernel

/-! ## The copy of a Tuning object -/

/-- C75. A copy of a Tuning object can be made for every accepted combination but iterative selection. -/
theorem C75_copy_partial (s : Selection) (v : Validation) (h : tuningAccepts s v = true) :
    tuningCopy s v = .ok () ↔ s ≠ .iterative := by
  cases s <;> cases v <;> revert h <;> decide +kernel

/-- C75 violated: `Tuning.copy`, which `nimble.train` calls after every tuning (learn.py:818-820), passes
`allowIncremental` to a constructor without such a parameter. -/
theorem C75_copy_violated : tuningAccepts .iterative .data = true ∧
    tuningCopy .iterative .data = .error .TypeError := by
  refine ⟨?_, ?_⟩ <;> decide +kernel

end Nimble
