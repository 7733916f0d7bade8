import Verif.Props.Consecutive

/-!
# C24 – consecutive tuning with any number of loops
-/

namespace Nimble

variable {K V P : Type} [DecidableEq K] [DecidableEq V]

/-! ## Specification -/

/-- The combinations tried from a list of candidates, those already tried being passed over, and
the best combination afterwards. -/
def tryAll (isBest : P → P → Bool) (perf : PyDict K V → P) :
    List (PyDict K V) → PyDict K V → List (PyDict K V) → List (PyDict K V) × PyDict K V
  | _, best, [] => ([], best)
  | tried, best, c :: cs =>
    if c ∈ tried then tryAll isBest perf tried best cs
    else (c :: (tryAll isBest perf (c :: tried) (better isBest perf best c) cs).1,
          (tryAll isBest perf (c :: tried) (better isBest perf best c) cs).2)

/-- One loop: argument by argument the given values with everything else as in the best so far. -/
def sweep (isBest : P → P → Bool) (perf : PyDict K V → P) :
    List (PyDict K V) → PyDict K V → List (K × List V) → List (PyDict K V) × PyDict K V
  | _, best, [] => ([], best)
  | tried, best, (k, vs) :: rest =>
    let one := tryAll isBest perf tried best (vs.map (PyDict.set best k))
    let more := sweep isBest perf (one.1.reverse ++ tried) one.2 rest
    (one.1 ++ more.1, more.2)

/-- The values of an argument other than the one it has in `best`, in order. -/
def otherValues (args : PyDict K (ArgVal V)) (best : PyDict K V) (k : K) : List V :=
  ((PyDict.get? args k).map (fun a => a.values)).getD [] |>.filter (fun v => PyDict.get? best k ≠ some v)

/-- All loops: each starts from the best combination found so far and considers, for every argument
in order, the values other than its best. -/
def loopSearch (isBest : P → P → Bool) (perf : PyDict K V → P) (args : PyDict K (ArgVal V)) (ord : List K) :
    Nat → List (PyDict K V) → PyDict K V → List (PyDict K V)
  | 0, _, _ => []
  | n + 1, tried, best =>
    let one := sweep isBest perf tried best (ord.map (fun k => (k, otherValues args best k)))
    one.1 ++ loopSearch isBest perf args ord n (one.1.reverse ++ tried) one.2

/-! ## Proof -/

/-- State while argument `k` is varied in loop `l`. -/
private structure LPhase (perf : PyDict K V → P) (st : ConsSt K V P) (l : Nat) (pre : List K) (k : K)
    (r : List V) (later : List (K × List V)) (b : PyDict K V) (x y : V) : Prop where
  order : st.order = some (pre ++ k :: later.map Prod.fst)
  target : st.target = pre.length
  loop : st.currentLoop = l
  curr : st.currArgs = some (PyDict.set b k x)
  best : st.bestArgs = PyDict.set b k y
  bestP : st.bestPerformance = some (perf (PyDict.set b k y))
  tune : PyDict.get? st.tune k = some r
  tuneLater : ∀ p ∈ later, PyDict.get? st.tune p.1 = some p.2
  nodup : (k :: later.map Prod.fst).Nodup
  has : ∀ p ∈ later, (PyDict.get? b p.1).isSome

private theorem lphase_advance {args : PyDict K (ArgVal V)} {loops : Nat} {perf : PyDict K V → P}
    {st : ConsSt K V P} {l : Nat} {pre : List K} {k : K} {r : List V} {later : List (K × List V)}
    {b : PyDict K V} {x y : V} (hl : l ≤ loops) (h : LPhase perf st l pre k r later b x y) :
    consAdvance args loops st = match r with
      | [] => exhausted args loops st (pre ++ k :: later.map Prod.fst) (PyDict.set b k x) k
      | _ :: _ => takeNext st (PyDict.set b k x) k := by
  unfold consAdvance
  rw [if_neg (by rw [h.loop]; omega), h.curr]
  simp only [h.order, Option.getD_some]
  cases hp : pre ++ k :: later.map Prod.fst with
  | nil => simp at hp
  | cons o os =>
    simp only
    have hk : (o :: os)[st.target]? = some k := by rw [← hp, h.target]; simp
    rw [hk]
    simp only [h.tune]
    cases r <;> rfl

private theorem lphase_empty {args : PyDict K (ArgVal V)} {loops : Nat} {perf : PyDict K V → P}
    {st : ConsSt K V P} {l : Nat} {pre : List K} {k : K} {later : List (K × List V)}
    {b : PyDict K V} {x y : V} (hl : l ≤ loops) (h : LPhase perf st l pre k [] later b x y) :
    consAdvance args loops st =
      exhausted args loops st (pre ++ k :: later.map Prod.fst) (PyDict.set b k x) k :=
  lphase_advance hl h

private theorem lphase_more {args : PyDict K (ArgVal V)} {loops : Nat} {perf : PyDict K V → P}
    {st : ConsSt K V P} {l : Nat} {pre : List K} {k : K} {r : List V} {later : List (K × List V)}
    {b : PyDict K V} {x y : V} (hl : l ≤ loops) (h : LPhase perf st l pre k r later b x y) (hr : r ≠ []) :
    consAdvance args loops st = takeNext st (PyDict.set b k x) k := by
  rw [lphase_advance hl h]
  cases r with
  | nil => exact absurd rfl hr
  | cons v r => rfl

/-- All values of the current argument. -/
private theorem lphase_values {args : PyDict K (ArgVal V)} {loops : Nat} {isBest : P → P → Bool}
    {perf : PyDict K V → P} {l : Nat} {pre : List K} {k : K} {later : List (K × List V)}
    {b : PyDict K V} (hl : l ≤ loops) (r : List V) : ∀ {st : ConsSt K V P} {x y : V},
    LPhase perf st l pre k r later b x y →
    ∃ (st2 : ConsSt K V P) (x2 y2 : V), LPhase perf st2 l pre k [] later b x2 y2 ∧
      (tryAll isBest perf st.tried (PyDict.set b k y) (r.map (PyDict.set b k))).2 = PyDict.set b k y2 ∧
      st2.tried = (tryAll isBest perf st.tried (PyDict.set b k y) (r.map (PyDict.set b k))).1.reverse
        ++ st.tried ∧
      ∀ vs e, ConsRuns args loops isBest perf st2 vs e → ConsRuns args loops isBest perf st
        ((tryAll isBest perf st.tried (PyDict.set b k y) (r.map (PyDict.set b k))).1 ++ vs) e := by
  induction r with
  | nil =>
    intro st x y h
    exact ⟨st, x, y, h, rfl, by simp [tryAll], fun vs e hr => by simpa [tryAll] using hr⟩
  | cons v r ih =>
    intro st x y h
    have hk := h.nodup
    rw [List.nodup_cons] at hk
    have hne_of : ∀ p ∈ later, k ≠ p.1 := fun p hp e => hk.1 (List.mem_map.2 ⟨p, hp, e.symm⟩)
    let st' : ConsSt K V P := { st with currArgs := some (PyDict.set b k v), tune := PyDict.set st.tune k r }
    have hadv : consAdvance args loops st = .ok st' := by
      rw [lphase_advance hl h]
      simp only [takeNext, h.tune, PyDict.set_set]
      rfl
    have htune : ∀ p ∈ later, PyDict.get? (PyDict.set st.tune k r) p.1 = some p.2 := by
      intro p hp
      rw [PyDict.get?_set, if_neg (hne_of p hp)]
      exact h.tuneLater p hp
    simp only [List.map_cons]
    by_cases ht : PyDict.set b k v ∈ st.tried
    · have hph : LPhase perf st' l pre k r later b v y :=
        ⟨h.order, h.target, h.loop, rfl, h.best, h.bestP, PyDict.get?_set_self _ _ _, htune, h.nodup, h.has⟩
      obtain ⟨st2, x2, y2, h1, h2, h3, h4⟩ := ih hph
      have e1 : tryAll isBest perf st.tried (PyDict.set b k y) (PyDict.set b k v :: r.map (PyDict.set b k))
          = tryAll isBest perf st.tried (PyDict.set b k y) (r.map (PyDict.set b k)) := by
        rw [tryAll, if_pos ht]
      rw [e1]
      exact ⟨st2, x2, y2, h1, h2, h3, fun vs e hr => .skip hadv rfl ht (h4 vs e hr)⟩
    · have hbest : ∃ z, better isBest perf (PyDict.set b k y) (PyDict.set b k v) = PyDict.set b k z ∧
          (consRecord isBest perf st' (PyDict.set b k v)).bestArgs = PyDict.set b k z ∧
          (consRecord isBest perf st' (PyDict.set b k v)).bestPerformance
            = some (perf (PyDict.set b k z)) := by
        have hbp : st'.bestPerformance = some (perf (PyDict.set b k y)) := h.bestP
        have hba : st'.bestArgs = PyDict.set b k y := h.best
        unfold better consRecord
        simp only [hbp, hba]
        by_cases hb : isBest (perf (PyDict.set b k v)) (perf (PyDict.set b k y)) = true
        · exact ⟨v, by simp [hb]⟩
        · exact ⟨y, by simp [hb]⟩
      obtain ⟨z, hz1, hz2, hz3⟩ := hbest
      have hph : LPhase perf (consRecord isBest perf st' (PyDict.set b k v)) l pre k r later b v z :=
        ⟨h.order, h.target, h.loop, rfl, hz2, hz3, PyDict.get?_set_self _ _ _, htune, h.nodup, h.has⟩
      obtain ⟨st2, x2, y2, h1, h2, h3, h4⟩ := ih hph
      have htr : (consRecord isBest perf st' (PyDict.set b k v)).tried = PyDict.set b k v :: st.tried := rfl
      rw [htr] at h2 h3 h4
      have e1 : tryAll isBest perf st.tried (PyDict.set b k y) (PyDict.set b k v :: r.map (PyDict.set b k))
          = (PyDict.set b k v :: (tryAll isBest perf (PyDict.set b k v :: st.tried) (PyDict.set b k z)
              (r.map (PyDict.set b k))).1,
             (tryAll isBest perf (PyDict.set b k v :: st.tried) (PyDict.set b k z)
              (r.map (PyDict.set b k))).2) := by
        rw [tryAll, if_neg ht, hz1]
      rw [e1]
      refine ⟨st2, x2, y2, h1, h2, ?_, fun vs e hr => .visit hadv rfl ht (h4 vs e hr)⟩
      rw [h3]; simp

/-- From the current argument to the end of the loop. -/
private theorem lphase_loop {args : PyDict K (ArgVal V)} {loops : Nat} {isBest : P → P → Bool}
    {perf : PyDict K V → P} {l : Nat} (hl : l ≤ loops) (later : List (K × List V)) :
    ∀ {pre : List K} {k : K} {r : List V} {st : ConsSt K V P} {b : PyDict K V} {x y : V},
    LPhase perf st l pre k r later b x y → PyDict.set b k y = b →
    (∀ p ∈ later, p.2 ≠ []) →
    ∃ (st2 : ConsSt K V P) (pre2 : List K) (k2 : K) (b2 : PyDict K V) (x2 y2 : V),
      LPhase perf st2 l pre2 k2 [] [] b2 x2 y2 ∧
      pre2 ++ [k2] = pre ++ k :: later.map Prod.fst ∧
      PyDict.set b2 k2 y2 = (sweep isBest perf st.tried b ((k, r) :: later)).2 ∧
      (∀ k', (PyDict.get? b k').isSome → (PyDict.get? b2 k').isSome) ∧
      st2.tried = (sweep isBest perf st.tried b ((k, r) :: later)).1.reverse ++ st.tried ∧
      ∀ vs e, ConsRuns args loops isBest perf st2 vs e → ConsRuns args loops isBest perf st
        ((sweep isBest perf st.tried b ((k, r) :: later)).1 ++ vs) e := by
  induction later with
  | nil =>
    intro pre k r st b x y h hby hne
    obtain ⟨st2, x2, y2, h1, h2, h3, h4⟩ := lphase_values (isBest := isBest) (args := args) hl r h
    rw [hby] at h2 h3 h4
    refine ⟨st2, pre, k, b, x2, y2, h1, rfl, ?_, fun k' hk' => hk', ?_, ?_⟩
    · simp only [sweep]; exact h2.symm
    · simpa [sweep] using h3
    · intro vs e hr
      simpa [sweep] using h4 vs e hr
  | cons q later ih =>
    obtain ⟨k2, vs2⟩ := q
    intro pre k r st b x y h hby hne
    obtain ⟨st2, x2, y2, h1, h2, h3, h4⟩ := lphase_values (isBest := isBest) (args := args) hl r h
    rw [hby] at h2 h3 h4
    have hnd := h.nodup
    simp only [List.map_cons, List.nodup_cons, List.mem_cons, not_or] at hnd
    have hne2 : vs2 ≠ [] := hne (k2, vs2) (by simp)
    have ht2 : PyDict.get? st2.tune k2 = some vs2 := h1.tuneLater (k2, vs2) (by simp)
    have hhas : (PyDict.get? b k2).isSome := h1.has (k2, vs2) (by simp)
    obtain ⟨f2, hf2⟩ := Option.isSome_iff_exists.1 hhas
    have hkk2 : k ≠ k2 := hnd.1.1
    have hset : PyDict.set (PyDict.set b k y2) k2 f2 = PyDict.set b k y2 := by
      apply PyDict.set_get?_self
      rw [PyDict.get?_set, if_neg hkk2, hf2]
    let st3 : ConsSt K V P := { st2 with target := st2.target + 1, currArgs := some (PyDict.set b k y2) }
    have hph : LPhase perf st3 l (pre ++ [k]) k2 vs2 later (PyDict.set b k y2) f2 f2 := by
      refine ⟨?_, ?_, h1.loop, ?_, ?_, ?_, ht2, ?_, ?_, ?_⟩
      · show st2.order = _
        rw [h1.order]; simp
      · show st2.target + 1 = _
        rw [h1.target]; simp
      · rw [hset]
      · rw [hset]; exact h1.best
      · rw [hset]; exact h1.bestP
      · intro p hp; exact h1.tuneLater p (by simp [hp])
      · rw [List.nodup_cons]; exact ⟨hnd.2.1, hnd.2.2⟩
      · intro p hp
        rw [PyDict.get?_set]
        split
        · rfl
        · exact h1.has p (by simp [hp])
    have hadv : consAdvance args loops st2 = consAdvance args loops st3 := by
      have hrb : restoreBest st2 (PyDict.set b k x2) k = .ok (PyDict.set b k y2) := by
        simp only [restoreBest, h1.best, PyDict.get?_set_self, PyDict.set_set]
      rw [lphase_empty hl h1, lphase_more hl hph hne2]
      unfold exhausted
      have hnx : (pre ++ k :: ((k2, vs2) :: later).map Prod.fst)[st2.target + 1]? = some k2 := by
        rw [h1.target, List.getElem?_append_right (by omega)]
        simp
      rw [hnx]
      simp only [hrb, bind, Except.bind, hset]
      rfl
    obtain ⟨st4, pre4, k4, b4, x4, y4, g1, g2, g3, g4, g5, g6⟩ :=
      ih hph hset (fun p hp => hne p (by simp [hp]))
    have htr : st3.tried = st2.tried := rfl
    rw [htr, h3] at g3 g5 g6
    have hsw : sweep isBest perf st.tried b ((k, r) :: (k2, vs2) :: later) =
        ((tryAll isBest perf st.tried b (r.map (PyDict.set b k))).1 ++
          (sweep isBest perf ((tryAll isBest perf st.tried b (r.map (PyDict.set b k))).1.reverse ++ st.tried)
            (PyDict.set b k y2) ((k2, vs2) :: later)).1,
         (sweep isBest perf ((tryAll isBest perf st.tried b (r.map (PyDict.set b k))).1.reverse ++ st.tried)
            (PyDict.set b k y2) ((k2, vs2) :: later)).2) := by
      rw [← h2]; rfl
    rw [hsw]
    refine ⟨st4, pre4, k4, b4, x4, y4, g1, ?_, g3, ?_, ?_, ?_⟩
    · rw [g2]; simp
    · intro k' hk'
      apply g4
      rw [PyDict.get?_set]
      split
      · rfl
      · exact hk'
    · rw [g5]; simp
    · intro vs e hr
      simp only [List.append_assoc]
      exact h4 _ e (runs_of_advance_eq hadv (g6 vs e hr))

private theorem newTunes_spec {args : PyDict K (ArgVal V)} {best : PyDict K V} (ks : List K) :
    ∀ (tune : PyDict K (List V)), (∀ k ∈ ks, ∃ vals, PyDict.get? args k = some (.tune vals)) →
    ∃ t, newTunes args best ks tune = .ok t ∧ (∀ k ∈ ks, PyDict.get? t k = some (otherValues args best k)) ∧
      ∀ k, k ∉ ks → PyDict.get? t k = PyDict.get? tune k := by
  induction ks with
  | nil => intro tune _; exact ⟨tune, rfl, by simp, fun _ _ => rfl⟩
  | cons k ks ih =>
    intro tune h
    obtain ⟨vals, hv⟩ := h k (by simp)
    obtain ⟨t, h1, h2, h3⟩ := ih (PyDict.set tune k (vals.filter (fun v => PyDict.get? best k ≠ some v)))
      (fun k' hk' => h k' (by simp [hk']))
    refine ⟨t, ?_, ?_, ?_⟩
    · unfold newTunes
      rw [hv]
      exact h1
    · intro k' hk'
      by_cases hin : k' ∈ ks
      · exact h2 k' hin
      · rcases List.mem_cons.1 hk' with rfl | hk'
        · rw [h3 _ hin, PyDict.get?_set_self]
          simp [otherValues, hv, ArgVal.values]
        · exact absurd hk' hin
    · intro k' hk'
      simp only [List.mem_cons, not_or] at hk'
      rw [h3 k' hk'.2, PyDict.get?_set, if_neg (Ne.symm hk'.1)]

private theorem otherValues_ne_nil {args : PyDict K (ArgVal V)} {k : K} {vals : List V}
    (hv : PyDict.get? args k = some (.tune vals)) (hn : vals.Nodup) (h2 : 2 ≤ vals.length)
    (best : PyDict K V) : otherValues args best k ≠ [] := by
  unfold otherValues
  rw [hv]
  simp only [Option.map_some, Option.getD_some, ArgVal.values]
  match vals, h2, hn with
  | a :: c :: rest, _, hn =>
    rw [List.nodup_cons] at hn
    intro he
    rw [List.filter_eq_nil_iff] at he
    have h1 := he a (by simp)
    have h2 := he c (by simp)
    simp only [ne_eq, decide_not, Bool.not_eq_true', decide_eq_false_iff_not, Decidable.not_not] at h1 h2
    rw [h1] at h2
    simp only [Option.some.injEq] at h2
    exact hn.1 (by simp [h2])

/-- From the start of a loop to the end of the run. -/
private theorem loops_runs {args : PyDict K (ArgVal V)} {loops : Nat} {isBest : P → P → Bool}
    {perf : PyDict K V → P} {k0 : K} {ks : List K} (hnod : (k0 :: ks).Nodup)
    (htune : ∀ k ∈ k0 :: ks, ∃ vals, PyDict.get? args k = some (.tune vals) ∧ vals.Nodup ∧ 2 ≤ vals.length)
    (n : Nat) : ∀ {l : Nat} {st : ConsSt K V P} {b : PyDict K V} {x y : V}, l + n = loops →
    LPhase perf st l [] k0 (otherValues args b k0) (ks.map (fun k => (k, otherValues args b k))) b x y →
    PyDict.set b k0 y = b → (∀ k ∈ k0 :: ks, (PyDict.get? b k).isSome) →
    ConsRuns args loops isBest perf st
      (loopSearch isBest perf args (k0 :: ks) (n + 1) st.tried b) .StopIteration := by
  induction n with
  | zero =>
    intro l st b x y hl h hby hall
    obtain ⟨st2, pre2, k2, b2, x2, y2, h1, h2, h3, h4, h5, h6⟩ := lphase_loop (isBest := isBest)
      (args := args) (by omega : l ≤ loops) _ h hby (by
        intro p hp
        obtain ⟨k, hk, rfl⟩ := List.mem_map.1 hp
        obtain ⟨vals, hv, hn, h2⟩ := htune k (by simp [hk])
        exact otherValues_ne_nil hv hn h2 b)
    have hdone : ConsRuns args loops isBest perf st2 [] .StopIteration := by
      refine .done ?_
      rw [lphase_empty (by omega) h1]
      unfold exhausted
      rw [List.getElem?_eq_none (by rw [h1.target]; simp)]
      simp only
      rw [if_pos (by rw [h1.loop]; omega)]
    have := h6 [] _ hdone
    simpa [loopSearch] using this
  | succ n ih =>
    intro l st b x y hl h hby hall
    obtain ⟨st2, pre2, k2, b2, x2, y2, h1, h2, h3, h4, h5, h6⟩ := lphase_loop (isBest := isBest)
      (args := args) (by omega : l ≤ loops) _ h hby (by
        intro p hp
        obtain ⟨k, hk, rfl⟩ := List.mem_map.1 hp
        obtain ⟨vals, hv, hn, h2⟩ := htune k (by simp [hk])
        exact otherValues_ne_nil hv hn h2 b)
    have hord : pre2 ++ [k2] = k0 :: ks := by
      rw [h2]
      simp [List.map_map, Function.comp_def]
    have hord2 : pre2 ++ k2 :: ([] : List (K × List V)).map Prod.fst = k0 :: ks := hord
    let best := PyDict.set b2 k2 y2
    have hbest_all : ∀ k ∈ k0 :: ks, (PyDict.get? best k).isSome := by
      intro k hk
      show (PyDict.get? (PyDict.set b2 k2 y2) k).isSome
      rw [PyDict.get?_set]
      split
      · rfl
      · exact h4 k (hall k hk)
    obtain ⟨t, ht1, ht2, _⟩ := newTunes_spec (args := args) (best := best) (k0 :: ks) st2.tune
      (fun k hk => (htune k hk).imp (fun _ h => h.1))
    obtain ⟨f0, hf0⟩ := Option.isSome_iff_exists.1 (hbest_all k0 (by simp))
    have hset0 : PyDict.set best k0 f0 = best := PyDict.set_get?_self hf0
    let st3 : ConsSt K V P := { st2 with currentLoop := l + 1, target := 0, tune := t, currArgs := some best }
    have hph : LPhase perf st3 (l + 1) [] k0 (otherValues args best k0)
        (ks.map (fun k => (k, otherValues args best k))) best f0 f0 := by
      refine ⟨?_, rfl, rfl, ?_, ?_, ?_, ht2 k0 (by simp), ?_, ?_, ?_⟩
      · show st2.order = _
        rw [h1.order, hord2]; simp [List.map_map, Function.comp_def]
      · rw [hset0]
      · rw [hset0]; exact h1.best
      · rw [hset0]; exact h1.bestP
      · intro p hp
        obtain ⟨k, hk, rfl⟩ := List.mem_map.1 hp
        exact ht2 k (by simp [hk])
      · simpa [List.map_map, Function.comp_def] using hnod
      · intro p hp
        obtain ⟨k, hk, rfl⟩ := List.mem_map.1 hp
        exact hbest_all k (by simp [hk])
    have hov0 : otherValues args best k0 ≠ [] := by
      obtain ⟨vals, hv, hn, h2⟩ := htune k0 (by simp)
      exact otherValues_ne_nil hv hn h2 best
    have hadv : consAdvance args loops st2 = consAdvance args loops st3 := by
      rw [lphase_empty (by omega) h1, lphase_more (by omega) hph hov0]
      unfold exhausted
      rw [List.getElem?_eq_none (by rw [h1.target]; simp)]
      simp only
      rw [if_neg (by rw [h1.loop]; omega), hord2]
      simp only
      have ht1' : newTunes args st2.bestArgs (k0 :: ks) st2.tune = .ok t := by rw [h1.best]; exact ht1
      rw [ht1', hset0]
      have hst3 : st3 = { st2 with currentLoop := st2.currentLoop + 1, target := 0, tune := t,
                                   currArgs := some st2.bestArgs } := by
        show ({ st2 with currentLoop := l + 1, target := 0, tune := t, currArgs := some best } : ConsSt K V P) = _
        rw [h1.loop, show st2.bestArgs = best from h1.best]
        try rw [show st2.bestArgs = best from h1.best]
      rw [hst3]
      simp only [bind, Except.bind]
      rw [show best = st2.bestArgs from h1.best.symm]
    have := h6 _ _ (runs_of_advance_eq hadv (ih (by omega) hph hset0 hbest_all))
    have htr : st3.tried = st2.tried := rfl
    rw [htr, h5] at this
    have hls : loopSearch isBest perf args (k0 :: ks) (n + 1 + 1) st.tried b =
        (sweep isBest perf st.tried b ((k0, otherValues args b k0) ::
          ks.map (fun k => (k, otherValues args b k)))).1 ++
        loopSearch isBest perf args (k0 :: ks) (n + 1)
          ((sweep isBest perf st.tried b ((k0, otherValues args b k0) ::
          ks.map (fun k => (k, otherValues args b k)))).1.reverse ++ st.tried) best := by
      show _ = _ ++ loopSearch isBest perf args (k0 :: ks) (n + 1) _ (PyDict.set b2 k2 y2)
      rw [h3]; rfl
    rw [hls]
    exact this

/-- C24, any number of loops.  Consecutive tuning tries the first values of all arguments and then,
loop after loop, argument by argument in order, the values other than the best one, all other
arguments being at their best so far; combinations already tried are passed over.  (Partial: every
argument to be tuned has at least two values; see `C24_single_value_violated`.) -/
theorem C24_all_loops_partial (args : PyDict K (ArgVal V)) (loops : Nat) (isBest : P → P → Bool)
    (perf : PyDict K V → P) (hloops : 1 ≤ loops)
    (hn : (PyDict.keys args).Nodup) (hne : ∀ p ∈ args, p.2.values ≠ [])
    (hv : ∀ p ∈ args, p.2.values.Nodup) {order : Option (List K)} {ord : List K}
    (hord : (order = none ∧ ord = tunedKeys args) ∨ (order = some ord ∧ ord.Perm (tunedKeys args)))
    (htwo : ∀ k ∈ ord, furtherValues args k ≠ [])
    (visited : List (PyDict K V)) (e : Err) :
    ConsRuns args loops isBest perf (consStart order) visited e ↔
      visited = firstArgs args :: loopSearch isBest perf args ord loops [firstArgs args] (firstArgs args) ∧
      e = .StopIteration := by
  suffices H : ConsRuns args loops isBest perf (consStart order)
      (firstArgs args :: loopSearch isBest perf args ord loops [firstArgs args] (firstArgs args))
      .StopIteration by
    constructor
    · exact fun h => runs_det H h
    · rintro ⟨rfl, rfl⟩; exact H
  have hmem : ∀ k, k ∈ ord ↔ k ∈ tunedKeys args := by
    rcases hord with ⟨_, h⟩ | ⟨_, h⟩
    · rw [h]; simp
    · exact fun k => h.mem_iff
  have hordn : ord.Nodup := by
    have : (tunedKeys args).Nodup := hn.sublist ((List.filter_sublist).map _)
    rcases hord with ⟨_, h⟩ | ⟨_, h⟩
    · rw [h]; exact this
    · exact h.nodup_iff.2 this
  have hinit : consInit order args [] [] [] =
      .ok (firstArgs args, tails args, if order = none then tunedKeys args else []) := by
    have := consInit_eq order args [] [] [] hn hne (by simp) (by
      intro l hl k hk
      rcases hord with ⟨h, _⟩ | ⟨h, _⟩
      · rw [h] at hl; cases hl
      · rw [h] at hl; cases hl; exact (hmem k).2 hk)
    simpa using this
  have hget : order.getD (if order = none then tunedKeys args else []) = ord := by
    rcases hord with ⟨h, h2⟩ | ⟨h, _⟩
    · rw [h, h2]; simp
    · rw [h]; simp
  let st1 : ConsSt K V P := ⟨some ord, 1, tails args, 0, none, [], some (firstArgs args), []⟩
  have hadv : consAdvance args loops (consStart order : ConsSt K V P) = .ok st1 := by
    unfold consAdvance
    rw [if_neg (by simp [consStart]; omega)]
    simp only [consStart, hinit]
    simp only [bind, Except.bind, pure, Except.pure, hget]
    rfl
  refine .visit hadv rfl (by simp [st1]) ?_
  have hfirst : ∀ k ∈ ord, ∃ vals f, PyDict.get? args k = some (.tune vals) ∧ vals.Nodup ∧ 2 ≤ vals.length ∧
      PyDict.get? (firstArgs args) k = some f ∧ furtherValues args k = otherValues args (firstArgs args) k := by
    intro k hk
    obtain ⟨vs, hvs⟩ := (mem_tunedKeys hn).1 ((hmem k).1 hk)
    have h1 := hne _ (PyDict.mem_of_get? hvs)
    have h2 := hv _ (PyDict.mem_of_get? hvs)
    have h3 := htwo k hk
    cases vs with
    | nil => simp [ArgVal.values] at h1
    | cons v vs =>
      simp only [ArgVal.values] at h2
      have hf : PyDict.get? (firstArgs args) k = some v := (get?_firstArgs hn hne k v).2 ⟨_, hvs, rfl⟩
      refine ⟨v :: vs, v, hvs, h2, ?_, hf, ?_⟩
      · simp only [furtherValues, hvs, Option.map_some, ArgVal.values, List.tail_cons,
          Option.getD_some] at h3
        cases vs with
        | nil => exact absurd rfl h3
        | cons w ws => simp
      · unfold furtherValues otherValues
        rw [hvs, hf]
        simp only [Option.map_some, ArgVal.values, List.tail_cons, Option.getD_some]
        rw [List.nodup_cons] at h2
        rw [List.filter_cons_of_neg (by simp)]
        symm
        rw [List.filter_eq_self]
        intro w hw
        simp only [ne_eq, Option.some.injEq, decide_not, Bool.not_eq_true', decide_eq_false_iff_not]
        rintro rfl
        exact h2.1 hw
  cases ord with
  | nil =>
    have h0 : ∀ n t (b : PyDict K V), loopSearch isBest perf args [] n t b = [] := by
      intro n
      induction n with
      | zero => intro t b; rfl
      | succ n ih => intro t b; simp [loopSearch, sweep, ih]
    rw [h0]
    refine .done ?_
    unfold consAdvance
    rw [if_neg (by simp [consRecord, st1]; omega)]
    rfl
  | cons k0 rest =>
    obtain ⟨n, rfl⟩ : ∃ n, loops = n + 1 := ⟨loops - 1, by omega⟩
    obtain ⟨_, f, _, _, _, hf1, _⟩ := hfirst k0 (by simp)
    have hset : PyDict.set (firstArgs args) k0 f = firstArgs args := PyDict.set_get?_self hf1
    have htn : ∀ k ∈ k0 :: rest, PyDict.get? (tails args) k
        = some (otherValues args (firstArgs args) k) := by
      intro k hk
      obtain ⟨_, _, _, _, _, _, h⟩ := hfirst k hk
      rw [← h]
      exact get?_tails hn ((hmem k).1 hk)
    refine loops_runs (l := 1) (st := consRecord isBest perf st1 (firstArgs args)) (x := f) (y := f)
      hordn (fun k hk => ?_) n (by omega) ?_ hset ?_
    · obtain ⟨vals, _, h1, h2, h3, _⟩ := hfirst k hk
      exact ⟨vals, h1, h2, h3⟩
    · refine ⟨?_, rfl, rfl, ?_, ?_, ?_, htn k0 (by simp), ?_, ?_, ?_⟩
      · show some _ = some _
        simp [List.map_map, Function.comp_def]
      · show some _ = some _
        rw [hset]
      · show firstArgs args = _
        rw [hset]
      · show some _ = some _
        rw [hset]
      · intro p hp
        obtain ⟨k, hk, rfl⟩ := List.mem_map.1 hp
        exact htn k (by simp [hk])
      · simpa [List.map_map, Function.comp_def] using hordn
      · intro p hp
        obtain ⟨k, hk, rfl⟩ := List.mem_map.1 hp
        obtain ⟨_, g, _, _, _, h, _⟩ := hfirst k (by simp [hk])
        simp [h]
    · intro k hk
      obtain ⟨_, g, _, _, _, h, _⟩ := hfirst k hk
      simp [h]

/-- Two loops over two arguments with two values each, minimising `10·(a-b)² + a`: the second loop
returns to `a = 1` with the new `b`, and tries nothing twice. -/
example : firstArgs [("a", ArgVal.tune [2, 1]), ("b", .tune [1, 2])] ::
    loopSearch (fun x y : Int => decide (x < y))
    (fun c => (PyDict.get? c "a").getD 0 + (PyDict.get? c "b").getD 0)
    [("a", .tune [2, 1]), ("b", .tune [1, 2])] ["a", "b"] 2 [[("a", 2), ("b", 1)]] [("a", 2), ("b", 1)] =
    [[("a", 2), ("b", 1)], [("a", 1), ("b", 1)], [("a", 1), ("b", 2)]] := by decide

end Nimble
