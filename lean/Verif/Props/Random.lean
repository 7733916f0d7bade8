import Verif.Model.Random
import Mathlib.Data.List.Nodup

/-!
# C27, C48, C49: controlled randomness
-/

namespace Nimble

section
variable {Seed Py Np : Type}

/-- The generators and the permission to seed of two states agree (the events may differ). -/
def RSt.SameControl (a b : RSt Py Np) : Prop := a.py = b.py ∧ a.np = b.np ∧ a.settable = b.settable

/-- C27: leaving `alternateControl`, whatever program ran inside (including nested uses, refused
`setSeed` calls, exceptions) and also when the seed is refused on entry, the rest of the program
runs with both generators and the permission to set the seed as they were on entry. -/
theorem C27_alternate_restores (G : RGen Seed Py Np) (seed : Seed) (body : RProg Seed)
    (rest : Res Nat → RProg Seed) (st : RSt Py Np) :
    ∃ (outcome : Res Nat) (st' : RSt Py Np), st'.SameControl st ∧
      (RProg.alternate seed body rest).run G st = (rest outcome).run G st' ∧
      (∀ n, G.seedNp seed = .ok n →
        outcome = (body.run G { st with py := G.seedPy seed, np := n, settable := false }).2) := by
  cases hs : G.seedNp seed with
  | error e =>
    refine ⟨.error e, rRestore st { st with py := G.seedPy seed }, ⟨rfl, rfl, rfl⟩, ?_, by simp⟩
    rw [RProg.run, hs]
  | ok n =>
    refine ⟨(body.run G { st with py := G.seedPy seed, np := n, settable := false }).2,
      rRestore st (body.run G { st with py := G.seedPy seed, np := n, settable := false }).1,
      ⟨rfl, rfl, rfl⟩, by rw [RProg.run, hs], ?_⟩
    intro m hm
    simp only [Except.ok.injEq] at hm
    rw [hm]

/-- Outcome of a `setSeed` event. -/
def REvent.refusedIfSeeded : REvent → Prop
  | .drew _ => True
  | .seeded r => r = .error .RuntimeError

/-- Inside alternate control the permission stays withdrawn and every `setSeed` is refused. -/
theorem RProg.run_locked (G : RGen Seed Py Np) (p : RProg Seed) (st : RSt Py Np)
    (h : st.settable = false) :
    (p.run G st).1.settable = false ∧
    ∃ ev, (p.run G st).1.events = st.events ++ ev ∧ ∀ e ∈ ev, e.refusedIfSeeded := by
  induction p generalizing st with
  | done r => exact ⟨h, [], by simp [RProg.run], by simp⟩
  | drawPy rest ih =>
    unfold RProg.run
    obtain ⟨h1, ev, h2, h3⟩ := ih (G.drawPy st.py).1
      { st with py := (G.drawPy st.py).2, events := st.events ++ [.drew (G.drawPy st.py).1] } h
    refine ⟨h1, [.drew (G.drawPy st.py).1] ++ ev, by rw [h2]; simp, ?_⟩
    intro e he
    rcases List.mem_append.1 he with he | he
    · rw [List.mem_singleton.1 he]; trivial
    · exact h3 e he
  | drawNp rest ih =>
    unfold RProg.run
    obtain ⟨h1, ev, h2, h3⟩ := ih (G.drawNp st.np).1
      { st with np := (G.drawNp st.np).2, events := st.events ++ [.drew (G.drawNp st.np).1] } h
    refine ⟨h1, [.drew (G.drawNp st.np).1] ++ ev, by rw [h2]; simp, ?_⟩
    intro e he
    rcases List.mem_append.1 he with he | he
    · rw [List.mem_singleton.1 he]; trivial
    · exact h3 e he
  | setSeed seed rest ih =>
    unfold RProg.run
    have hr : rSetSeed G seed st = (st, .error .RuntimeError) := by
      unfold rSetSeed; rw [h]; rfl
    rw [hr]
    obtain ⟨h1, ev, h2, h3⟩ := ih (.error .RuntimeError)
      { st with events := st.events ++ [.seeded (.error .RuntimeError)] } h
    refine ⟨h1, [.seeded (.error .RuntimeError)] ++ ev, by rw [h2]; simp, ?_⟩
    intro e he
    rcases List.mem_append.1 he with he | he
    · rw [List.mem_singleton.1 he]; rfl
    · exact h3 e he
  | alternate seed body rest ihb ih =>
    unfold RProg.run
    cases hs : G.seedNp seed with
    | error e =>
      simp only
      exact ih (.error e) (rRestore st { st with py := G.seedPy seed }) h
    | ok n =>
      simp only
      obtain ⟨_, ev, h2, h3⟩ := ihb { st with py := G.seedPy seed, np := n, settable := false } rfl
      generalize body.run G { st with py := G.seedPy seed, np := n, settable := false } = x at h2
      obtain ⟨k1, ev', k2, k3⟩ := ih x.2 (rRestore st x.1) h
      refine ⟨k1, ev ++ ev', ?_, ?_⟩
      · rw [k2]; unfold rRestore; simp only; rw [h2]; simp
      · intro e he
        rcases List.mem_append.1 he with he | he
        · exact h3 e he
        · exact k3 e he

/-- C27: `setSeed` is refused with a `RuntimeError` inside `alternateControl`, at any nesting depth
and at any time: running any program inside only records refused attempts. -/
theorem C27_setSeed_refused_inside (G : RGen Seed Py Np) (seed : Seed) (body : RProg Seed)
    (st : RSt Py Np) :
    ∃ ev, ((RProg.alternate seed body .done).run G st).1.events = st.events ++ ev ∧
      ∀ e ∈ ev, e.refusedIfSeeded := by
  unfold RProg.run
  cases hs : G.seedNp seed with
  | error e => exact ⟨[], by simp [rRestore, RProg.run], by simp⟩
  | ok n =>
    obtain ⟨_, ev, h2, h3⟩ := RProg.run_locked G body
      { st with py := G.seedPy seed, np := n, settable := false } rfl
    exact ⟨ev, by simp only [RProg.run, rRestore]; exact h2, h3⟩

/-- C27: outside alternate control `setSeed` stays permitted after any program. -/
theorem C27_settable_again (G : RGen Seed Py Np) (p : RProg Seed) (st : RSt Py Np) :
    (p.run G st).1.settable = st.settable := by
  induction p generalizing st with
  | done r => rfl
  | drawPy rest ih => unfold RProg.run; rw [ih]
  | drawNp rest ih => unfold RProg.run; rw [ih]
  | setSeed seed rest ih =>
    unfold RProg.run; rw [ih]
    unfold rSetSeed
    cases hset : st.settable with
    | false => simp [hset]
    | true =>
      simp only [if_true]
      cases G.seedNp seed <;> rfl
  | alternate seed body rest ihb ih =>
    unfold RProg.run
    cases hs : G.seedNp seed with
    | error e => simp only; rw [ih]; rfl
    | ok n => simp only; rw [ih]; rfl

/-- The result and the events of a program depend only on the generators and the permission. -/
theorem RProg.run_events_irrelevant (G : RGen Seed Py Np) (p : RProg Seed) (a b : RSt Py Np)
    (h : a.SameControl b) :
    (p.run G a).2 = (p.run G b).2 ∧ (p.run G a).1.SameControl (p.run G b).1 ∧
    ∃ ev, (p.run G a).1.events = a.events ++ ev ∧ (p.run G b).1.events = b.events ++ ev := by
  induction p generalizing a b with
  | done r => exact ⟨rfl, h, [], by simp [RProg.run], by simp [RProg.run]⟩
  | drawPy rest ih =>
    unfold RProg.run
    obtain ⟨h1, h2, h3⟩ := h
    rw [h1]
    obtain ⟨k1, k2, ev, k3, k4⟩ := ih (G.drawPy b.py).1
      { a with py := (G.drawPy b.py).2, events := a.events ++ [.drew (G.drawPy b.py).1] }
      { b with py := (G.drawPy b.py).2, events := b.events ++ [.drew (G.drawPy b.py).1] } ⟨rfl, h2, h3⟩
    refine ⟨k1, k2, [.drew (G.drawPy b.py).1] ++ ev, ?_, ?_⟩
    · rw [k3]; simp
    · rw [k4]; simp
  | drawNp rest ih =>
    unfold RProg.run
    obtain ⟨h1, h2, h3⟩ := h
    rw [h2]
    obtain ⟨k1, k2, ev, k3, k4⟩ := ih (G.drawNp b.np).1
      { a with np := (G.drawNp b.np).2, events := a.events ++ [.drew (G.drawNp b.np).1] }
      { b with np := (G.drawNp b.np).2, events := b.events ++ [.drew (G.drawNp b.np).1] } ⟨h1, rfl, h3⟩
    refine ⟨k1, k2, [.drew (G.drawNp b.np).1] ++ ev, ?_, ?_⟩
    · rw [k3]; simp
    · rw [k4]; simp
  | setSeed seed rest ih =>
    unfold RProg.run
    obtain ⟨h1, h2, h3⟩ := h
    have hr : (rSetSeed G seed a).2 = (rSetSeed G seed b).2 ∧
        (rSetSeed G seed a).1.SameControl (rSetSeed G seed b).1 := by
      unfold rSetSeed
      rw [h3]
      cases b.settable with
      | false => exact ⟨rfl, h1, h2, h3⟩
      | true =>
        simp only [if_true]
        cases G.seedNp seed with
        | error e => exact ⟨rfl, rfl, h2, rfl⟩
        | ok n => exact ⟨rfl, rfl, rfl, rfl⟩
    rw [hr.1]
    obtain ⟨k1, k2, ev, k3, k4⟩ := ih (rSetSeed G seed b).2
      { (rSetSeed G seed a).1 with events := a.events ++ [.seeded (rSetSeed G seed b).2] }
      { (rSetSeed G seed b).1 with events := b.events ++ [.seeded (rSetSeed G seed b).2] }
      ⟨hr.2.1, hr.2.2.1, hr.2.2.2⟩
    refine ⟨k1, k2, [.seeded (rSetSeed G seed b).2] ++ ev, ?_, ?_⟩
    · rw [k3]; simp
    · rw [k4]; simp
  | alternate seed body rest ihb ih =>
    unfold RProg.run
    cases hs : G.seedNp seed with
    | error e =>
      simp only
      exact ih (.error e) (rRestore a { a with py := G.seedPy seed })
        (rRestore b { b with py := G.seedPy seed }) h
    | ok n =>
      simp only
      obtain ⟨k1, _, ev, k3, k4⟩ := ihb
        { a with py := G.seedPy seed, np := n, settable := false }
        { b with py := G.seedPy seed, np := n, settable := false } ⟨rfl, rfl, rfl⟩
      generalize body.run G { a with py := G.seedPy seed, np := n, settable := false } = x at k1 k3
      generalize body.run G { b with py := G.seedPy seed, np := n, settable := false } = y at k1 k4
      rw [k1]
      obtain ⟨j1, j2, ev', j3, j4⟩ := ih y.2 (rRestore a x.1) (rRestore b y.1) h
      refine ⟨j1, j2, ev ++ ev', ?_, ?_⟩
      · rw [j3]; unfold rRestore; simp only; rw [k3]; simp
      · rw [j4]; unfold rRestore; simp only; rw [k4]; simp

/-- C48: a block under `alternateControl(seed)` is reproducible: it draws the same values and ends
the same way whatever the state of the generators when it is entered. -/
theorem C48_alternate_reproducible (G : RGen Seed Py Np) (seed : Seed) (body : RProg Seed)
    (a b : RSt Py Np) :
    ((RProg.alternate seed body .done).run G a).2 = ((RProg.alternate seed body .done).run G b).2 ∧
    ∃ ev, ((RProg.alternate seed body .done).run G a).1.events = a.events ++ ev ∧
      ((RProg.alternate seed body .done).run G b).1.events = b.events ++ ev := by
  unfold RProg.run
  cases hs : G.seedNp seed with
  | error e =>
    exact ⟨rfl, [], by simp [rRestore, RProg.run], by simp [rRestore, RProg.run]⟩
  | ok n =>
    obtain ⟨k1, _, ev, k3, k4⟩ := RProg.run_events_irrelevant G body
        { a with py := G.seedPy seed, np := n, settable := false }
        { b with py := G.seedPy seed, np := n, settable := false } ⟨rfl, rfl, rfl⟩
    exact ⟨k1, ev, k3, k4⟩

/-- C48: a program started by a successful `setSeed(seed)` is reproducible. -/
theorem C48_setSeed_reproducible (G : RGen Seed Py Np) (seed : Seed) (n : Np)
    (hn : G.seedNp seed = .ok n) (rest : RProg Seed) (a b : RSt Py Np)
    (ha : a.settable = true) (hb : b.settable = true) :
    ((RProg.setSeed seed (fun _ => rest)).run G a).2 = ((RProg.setSeed seed (fun _ => rest)).run G b).2 ∧
    ∃ ev, ((RProg.setSeed seed (fun _ => rest)).run G a).1.events = a.events ++ ev ∧
      ((RProg.setSeed seed (fun _ => rest)).run G b).1.events = b.events ++ ev := by
  have e : ∀ c : RSt Py Np, c.settable = true →
      rSetSeed G seed c = ({ c with py := G.seedPy seed, np := n }, .ok ()) := by
    intro c hc; unfold rSetSeed; rw [hc]; simp [hn]
  unfold RProg.run
  rw [e a ha, e b hb]
  obtain ⟨k1, _, ev, k3, k4⟩ := RProg.run_events_irrelevant G rest
    { a with py := G.seedPy seed, np := n, events := a.events ++ [.seeded (.ok ())] }
    { b with py := G.seedPy seed, np := n, events := b.events ++ [.seeded (.ok ())] }
    ⟨rfl, rfl, ha.trans hb.symm⟩
  refine ⟨k1, [.seeded (.ok ())] ++ ev, ?_, ?_⟩
  · simp only; rw [k3]; simp
  · simp only; rw [k4]; simp

end

/-! ### `random.data` -/

section
variable {Py Np : Type}

/-- C49: `random.data` with a given `randomSeed` leaves the generators untouched, and without one
takes exactly one draw from the Python generator; an invalid seed is refused without effect. -/
theorem C49_data_generators (G : RGen Int Py Np) (draws : RProg Int) (st : RSt Py Np) :
    (∀ s : Int, (rData G (some s) draws st).1.SameControl st) ∧
    (rData G none draws st).1.SameControl { st with py := (G.drawPy st.py).2 } ∧
    (∀ s : Int, (s < 0 ∨ 4294967295 < s) → rData G (some s) draws st = (st, .error .InvalidArgumentValue)) := by
  have key : ∀ (s : Int) (st : RSt Py Np),
      ((RProg.alternate s draws .done).run G st).1.SameControl st := by
    intro s st
    unfold RProg.run
    cases G.seedNp s with
    | error e => exact ⟨rfl, rfl, rfl⟩
    | ok n => exact ⟨rfl, rfl, rfl⟩
  refine ⟨?_, ?_, ?_⟩
  · intro s
    unfold rData getValidSeed
    simp only
    by_cases h : 0 ≤ s ∧ s ≤ 2 ^ 32 - 1
    · rw [if_pos h]; exact key s st
    · rw [if_neg h]; exact ⟨rfl, rfl, rfl⟩
  · unfold rData getValidSeed
    simp only
    exact key _ _
  · intro s hs
    unfold rData getValidSeed
    simp only
    rw [if_neg]
    omega

/-- C49: with the same `randomSeed` `random.data` draws the same values whatever was done before. -/
theorem C49_data_reproducible (G : RGen Int Py Np) (s : Int) (draws : RProg Int) (a b : RSt Py Np) :
    (rData G (some s) draws a).2 = (rData G (some s) draws b).2 := by
  unfold rData getValidSeed
  simp only
  by_cases h : 0 ≤ s ∧ s ≤ 2 ^ 32 - 1
  · rw [if_pos h, if_pos h]; exact (C48_alternate_reproducible G s draws a b).1
  · rw [if_neg h, if_neg h]

end

section
variable {V : Type}

theorem foldl_set_getElem? (l : List (Nat × V)) (acc : List V) (hn : (l.map Prod.fst).Nodup)
    (hb : ∀ p ∈ l, p.1 < acc.length) (i : Nat) :
    (l.foldl (fun acc x => acc.set x.1 x.2) acc)[i]? =
      match l.find? (fun e => e.1 == i) with
      | some e => some e.2
      | none => acc[i]? := by
  induction l generalizing acc with
  | nil => rfl
  | cons q l ih =>
    obtain ⟨a, b⟩ := q
    have hn' : a ∉ l.map Prod.fst ∧ (l.map Prod.fst).Nodup := by simpa using hn
    simp only [List.foldl_cons]
    rw [ih _ hn'.2 (by intro p hp; rw [List.length_set]; exact hb p (by simp [hp]))]
    have hal : a < acc.length := hb (a, b) (by simp)
    by_cases hai : a = i
    · subst hai
      have : l.find? (fun e => e.1 == a) = none := by
        rw [List.find?_eq_none]
        intro e he
        simp only [beq_iff_eq]
        rintro rfl
        exact hn'.1 (List.mem_map_of_mem he)
      rw [this]
      simp [hal]
    · have : (a == i) = false := by simp [hai]
      simp only [List.find?_cons, this]
      cases l.find? (fun e => e.1 == i) with
      | some e => rfl
      | none => simp only; rw [List.getElem?_set_ne hai]

theorem divmod_inj {n p q : Nat} (hn : 0 < n) : (p / n = q / n ∧ p % n = q % n) ↔ p = q := by
  constructor
  · rintro ⟨h1, h2⟩
    rw [← Nat.div_add_mod p n, ← Nat.div_add_mod q n, h1, h2]
  · rintro rfl; exact ⟨rfl, rfl⟩

theorem map_fst_zip_nodup {A B : Type} {l : List A} (hn : l.Nodup) (m : List B) :
    ((List.zip l m).map Prod.fst).Nodup := by
  induction l generalizing m with
  | nil => simp
  | cons a l ih =>
    cases m with
    | nil => simp
    | cons b m =>
      rw [List.nodup_cons] at hn
      simp only [List.zip_cons_cons, List.map_cons, List.nodup_cons]
      refine ⟨?_, ih hn.2 m⟩
      intro hmem
      obtain ⟨p, hp, rfl⟩ := List.mem_map.1 hmem
      exact hn.1 (List.of_mem_zip (a := p.1) (b := p.2) hp).1

/-- C49: for every choice of distinct positions (`nzLocation`, drawn without replacement) and
values, the Sparse and the dense return types of `random.data` hold the same matrix. -/
theorem C49_sparse_dense_agree (zero : V) (numPoints numFeatures : Nat) (nzLocation : List Nat)
    (dataVector : List V) (hf : 0 < numFeatures) (hn : nzLocation.Nodup)
    (hb : ∀ p ∈ nzLocation, p < numPoints * numFeatures) (i j : Nat) (hi : i < numPoints)
    (hj : j < numFeatures) :
    denseElem numFeatures (putFlat zero (numPoints * numFeatures) nzLocation dataVector) i j
      = some (cooElem zero (cooEntries numFeatures nzLocation dataVector) i j) := by
  unfold denseElem putFlat
  rw [foldl_set_getElem? _ _ (map_fst_zip_nodup hn _)]
  · have hdiv : (i * numFeatures + j) / numFeatures = i := by
      rw [Nat.mul_comm, Nat.mul_add_div hf, Nat.div_eq_of_lt hj, Nat.add_zero]
    have hmod : (i * numFeatures + j) % numFeatures = j := by
      rw [Nat.mul_comm, Nat.mul_add_mod, Nat.mod_eq_of_lt hj]
    have hlt : i * numFeatures + j < numPoints * numFeatures := by
      calc i * numFeatures + j < i * numFeatures + numFeatures := by omega
        _ = (i + 1) * numFeatures := by rw [Nat.succ_mul]
        _ ≤ numPoints * numFeatures := Nat.mul_le_mul_right _ hi
    have hfind : (cooEntries numFeatures nzLocation dataVector).find? (fun e => e.1 == i && e.2.1 == j)
        = ((List.zip nzLocation dataVector).find? (fun e => e.1 == i * numFeatures + j)).map
            (fun x => (x.1 / numFeatures, x.1 % numFeatures, x.2)) := by
      unfold cooEntries
      rw [List.find?_map]
      congr 2
      funext e
      simp only [Function.comp_apply]
      rw [Bool.eq_iff_iff]
      simp only [Bool.and_eq_true, beq_iff_eq]
      rw [← divmod_inj hf (p := e.1) (q := i * numFeatures + j), hdiv, hmod]
    unfold cooElem
    rw [hfind]
    cases (List.zip nzLocation dataVector).find? (fun e => e.1 == i * numFeatures + j) with
    | some e => rfl
    | none => simp [hlt]
  · intro p hp
    rw [List.length_replicate]
    exact hb p.1 (List.of_mem_zip (a := p.1) (b := p.2) hp).1

theorem countP_set_of_false {P : V → Bool} {acc : List V} {i : Nat} (hi : i < acc.length)
    (h0 : P acc[i] = false) {v : V} (hv : P v = true) :
    (acc.set i v).countP P = acc.countP P + 1 := by
  rw [List.countP_set hi]
  simp [h0, hv]

theorem foldl_set_countP {P : V → Bool} {zero : V} (hz : P zero = false) (l : List (Nat × V)) (acc : List V)
    (hn : (l.map Prod.fst).Nodup) (hb : ∀ p ∈ l, ∃ h : p.1 < acc.length, acc[p.1] = zero)
    (hv : ∀ p ∈ l, P p.2 = true) :
    (l.foldl (fun acc x => acc.set x.1 x.2) acc).countP P = acc.countP P + l.length := by
  induction l generalizing acc with
  | nil => simp
  | cons q l ih =>
    obtain ⟨a, b⟩ := q
    have hn' : a ∉ l.map Prod.fst ∧ (l.map Prod.fst).Nodup := by simpa using hn
    obtain ⟨hal, haz⟩ := hb (a, b) (by simp)
    simp only [List.foldl_cons]
    rw [ih _ hn'.2 _ (fun p hp => hv p (by simp [hp]))]
    · rw [countP_set_of_false hal (by simp only at haz; rw [haz]; exact hz) (hv (a, b) (by simp))]
      simp only [List.length_cons]; omega
    · intro p hp
      obtain ⟨h1, h2⟩ := hb p (by simp [hp])
      refine ⟨by rw [List.length_set]; exact h1, ?_⟩
      have : a ≠ p.1 := by
        rintro rfl
        exact hn'.1 (List.mem_map_of_mem hp)
      rw [List.getElem_set_ne this]
      exact h2

/-- C49: `random.data` with nonzero drawn values has exactly as many nonzero elements as positions
were drawn. -/
theorem C49_nonzero_count [DecidableEq V] (zero : V) (gridSize : Nat) (nzLocation : List Nat)
    (dataVector : List V) (hlen : nzLocation.length = dataVector.length) (hn : nzLocation.Nodup)
    (hb : ∀ p ∈ nzLocation, p < gridSize) (hv : ∀ v ∈ dataVector, v ≠ zero) :
    (putFlat zero gridSize nzLocation dataVector).length = gridSize ∧
    (putFlat zero gridSize nzLocation dataVector).countP (fun v => decide (v ≠ zero))
      = nzLocation.length := by
  unfold putFlat
  constructor
  · have : ∀ (l : List (Nat × V)) (acc : List V),
        (l.foldl (fun acc x => acc.set x.1 x.2) acc).length = acc.length := by
      intro l
      induction l with
      | nil => intro acc; rfl
      | cons q l ih => intro acc; simp only [List.foldl_cons]; rw [ih, List.length_set]
    rw [this, List.length_replicate]
  · rw [foldl_set_countP (zero := zero) (by simp) _ _ (map_fst_zip_nodup hn _)]
    · have h0 : (List.replicate gridSize zero).countP (fun v => decide (v ≠ zero)) = 0 := by
        rw [List.countP_eq_zero]
        intro a ha
        simp [List.eq_of_mem_replicate ha]
      rw [h0, List.length_zip, hlen]
      omega
    · intro p hp
      have := hb p.1 (List.of_mem_zip (a := p.1) (b := p.2) hp).1
      exact ⟨by rw [List.length_replicate]; exact this, by simp⟩
    · intro p hp
      simp [hv p.2 (List.of_mem_zip (a := p.1) (b := p.2) hp).2]

end

/-! ### Concrete generators -/

/-- Counters as generators; numpy refuses negative seeds. -/
def toyGen : RGen Int Nat Nat where
  seedPy s := s.natAbs
  seedNp s := if 0 ≤ s then .ok s.toNat else .error .ValueError
  drawPy n := (n, n + 1)
  drawNp n := (n, n + 1)

/-- A nested use with a refused `setSeed` inside and an exception: afterwards the draws go on as if
nothing had happened. -/
example : ((RProg.alternate (5 : Int)
      (.drawPy fun _ => .alternate 9 (.setSeed 3 fun _ => .done (.error .ValueError)) fun _ => .done (.ok 1))
      (fun _ => .drawPy fun x => .done (.ok x))).run toyGen ⟨42, 42, true, []⟩).2 = .ok 42 := by rfl

/-- The positions `[4, 0]` in a 2×3 matrix. -/
example : putFlat (0 : Int) 6 [4, 0] [7, 8] = [8, 0, 0, 0, 7, 0] := by rfl

/-- C50 (a refused `setSeed` has no effect) violated: a seed that numpy refuses raises an exception
after the Python generator has already been reseeded. -/
theorem C50_refused_setSeed_violated :
    ∃ (seed : Int) (st : RSt Nat Nat), (rSetSeed toyGen seed st).2 = .error .ValueError ∧
      (rSetSeed toyGen seed st).1.py ≠ st.py ∧ (rSetSeed toyGen seed st).1.np = st.np := by
  refine ⟨-1, ⟨42, 42, true, []⟩, by rfl, by decide, by rfl⟩

/-- C50 (partial): a `setSeed` refused because of alternate control has no effect, and an accepted
one reseeds both generators. -/
theorem C50_setSeed_partial {Seed Py Np : Type} (G : RGen Seed Py Np) (seed : Seed) (st : RSt Py Np) :
    (st.settable = false → rSetSeed G seed st = (st, .error .RuntimeError)) ∧
    ((rSetSeed G seed st).2 = .ok () → st.settable = true ∧ (rSetSeed G seed st).1.py = G.seedPy seed ∧
      G.seedNp seed = .ok (rSetSeed G seed st).1.np) := by
  constructor
  · intro h; unfold rSetSeed; rw [h]; rfl
  · intro h
    unfold rSetSeed at h ⊢
    cases hs : st.settable with
    | false => rw [hs] at h; simp at h
    | true =>
      rw [hs] at h
      simp only [if_true] at h ⊢
      cases hn : G.seedNp seed with
      | error e => rw [hn] at h; simp at h
      | ok n => simp

end Nimble
