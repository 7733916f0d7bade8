import Verif.Model.Tuning
import Verif.Lemmas.Py
import Mathlib.Data.List.Nodup
import Mathlib.Data.Prod.Lex

/-!
# C24 – consecutive tuning
-/

namespace Nimble

variable {K V P : Type} [DecidableEq K] [DecidableEq V]

namespace PyDict

theorem set_set {β : Type} (d : PyDict K β) (k : K) (x y : β) : set (set d k x) k y = set d k y := by
  induction d with
  | nil => simp [set]
  | cons p d ih =>
    obtain ⟨k', v'⟩ := p
    simp only [set]
    by_cases h : k' = k
    · simp [h, set]
    · simp [h, set, ih]

theorem set_get?_self {β : Type} {d : PyDict K β} {k : K} {v : β} (h : get? d k = some v) : set d k v = d := by
  induction d with
  | nil => simp at h
  | cons p d ih =>
    obtain ⟨k', v'⟩ := p
    simp only [get?] at h
    simp only [set]
    by_cases hk : k' = k
    · simp only [hk, if_true, Option.some.injEq] at h ⊢; rw [h]
    · simp only [hk, if_false] at h ⊢; rw [ih h]

end PyDict

/-! ## Termination -/

/-- Remaining values of the current target. -/
private def remaining (st : ConsSt K V P) : Nat :=
  ((((st.order.getD [])[st.target]?).bind (PyDict.get? st.tune)).getD []).length

private def mu (loops : Nat) (st : ConsSt K V P) : Nat ×ₗ Nat ×ₗ Nat ×ₗ Nat :=
  toLex (if st.currArgs.isSome then 0 else 1,
    toLex (loops + 1 - st.currentLoop, toLex ((st.order.getD []).length - st.target, remaining st)))

private theorem takeNext_ok {st st' : ConsSt K V P} {curr : PyDict K V} {key : K}
    (h : takeNext st curr key = .ok st') :
    ∃ v vs, PyDict.get? st.tune key = some (v :: vs) ∧
      st' = { st with currArgs := some (PyDict.set curr key v), tune := PyDict.set st.tune key vs } := by
  unfold takeNext at h
  split at h
  · cases h
  · cases h
  · next v vs hg => cases h; exact ⟨v, vs, hg, rfl⟩

private theorem advance_ok {args : PyDict K (ArgVal V)} {loops : Nat} {st st' : ConsSt K V P}
    (h : consAdvance args loops st = .ok st') :
    st'.tried = st.tried ∧ (∃ a, st'.currArgs = some a) ∧ mu loops st' < mu loops st := by
  unfold consAdvance at h
  split at h
  · cases h
  next hloop =>
  split at h
  · next hc =>
    cases hi : consInit st.order args [] [] [] with
    | error e => rw [hi] at h; cases h
    | ok t =>
      obtain ⟨curr, tune, ord⟩ := t
      rw [hi] at h
      simp only [bind, Except.bind, pure, Except.pure, Except.ok.injEq] at h
      subst h
      refine ⟨rfl, ⟨curr, rfl⟩, ?_⟩
      unfold mu
      rw [Prod.Lex.toLex_lt_toLex]
      left
      simp [hc]
  · next curr hc =>
    split at h
    · cases h
    · next o os ho =>
      split at h
      · cases h
      · next key hkey =>
        split at h
        · next hg =>
          -- exhausted
          unfold exhausted at h
          split at h
          · next nxt hn =>
            cases hr : restoreBest st curr key with
            | error e => rw [hr] at h; cases h
            | ok c =>
              rw [hr] at h
              simp only [bind, Except.bind] at h
              obtain ⟨v, vs, _, rfl⟩ := takeNext_ok h
              refine ⟨rfl, ⟨_, rfl⟩, ?_⟩
              unfold mu
              rw [Prod.Lex.toLex_lt_toLex, Prod.Lex.toLex_lt_toLex, Prod.Lex.toLex_lt_toLex]
              right
              refine ⟨by simp [hc], Or.inr ⟨rfl, Or.inl ?_⟩⟩
              have : st.target + 1 < (o :: os).length := by
                have := List.getElem?_eq_some_iff.1 hn
                exact this.1
              show (st.order.getD []).length - (st.target + 1) < (st.order.getD []).length - st.target
              rw [ho]
              omega
          · split at h
            · cases h
            · next hl =>
              simp only at h
              cases ht : newTunes args st.bestArgs (o :: os) st.tune with
              | error e => rw [ht] at h; cases h
              | ok tn =>
                rw [ht] at h
                simp only [bind, Except.bind] at h
                obtain ⟨v, vs, _, rfl⟩ := takeNext_ok h
                refine ⟨rfl, ⟨_, rfl⟩, ?_⟩
                unfold mu
                rw [Prod.Lex.toLex_lt_toLex, Prod.Lex.toLex_lt_toLex]
                right
                refine ⟨by simp [hc], Or.inl ?_⟩
                show loops + 1 - (st.currentLoop + 1) < loops + 1 - st.currentLoop
                omega
        · obtain ⟨v, vs, hg, rfl⟩ := takeNext_ok h
          refine ⟨rfl, ⟨_, rfl⟩, ?_⟩
          unfold mu
          rw [Prod.Lex.toLex_lt_toLex, Prod.Lex.toLex_lt_toLex, Prod.Lex.toLex_lt_toLex]
          right
          refine ⟨by simp [hc], Or.inr ⟨rfl, Or.inr ⟨rfl, ?_⟩⟩⟩
          unfold remaining
          simp only [ho, hkey, Option.bind_some, hg, PyDict.get?_set_self, Option.getD_some,
            List.length_cons]
          exact Nat.lt_succ_self _

private theorem mu_record (loops : Nat) (isBest : P → P → Bool) (perf : PyDict K V → P)
    (st : ConsSt K V P) (a : PyDict K V) : mu loops (consRecord isBest perf st a) = mu loops st := rfl

/-- C24. Consecutive tuning always comes to an end, for any arguments, order, number of loops and
performances, from any state. -/
theorem C24_terminates (args : PyDict K (ArgVal V)) (loops : Nat) (isBest : P → P → Bool)
    (perf : PyDict K V → P) (st : ConsSt K V P) :
    ∃ visited e, ConsRuns args loops isBest perf st visited e := by
  have wf : WellFounded (fun a b : ConsSt K V P => mu loops a < mu loops b) :=
    InvImage.wf (mu loops) (inferInstance : WellFoundedRelation (Nat ×ₗ Nat ×ₗ Nat ×ₗ Nat)).wf
  induction st using wf.induction with
  | _ st ih =>
    cases h : consAdvance args loops st with
    | error e => exact ⟨[], e, .done h⟩
    | ok st' =>
      obtain ⟨_, ⟨a, ha⟩, hm⟩ := advance_ok h
      by_cases ht : a ∈ st'.tried
      · obtain ⟨vs, e, hr⟩ := ih st' hm
        exact ⟨vs, e, .skip h ha ht hr⟩
      · obtain ⟨vs, e, hr⟩ := ih (consRecord isBest perf st' a) (by rw [mu_record]; exact hm)
        exact ⟨a :: vs, e, .visit h ha ht hr⟩

private theorem runs_not_tried {args : PyDict K (ArgVal V)} {loops : Nat} {isBest : P → P → Bool}
    {perf : PyDict K V → P} {st : ConsSt K V P} {vs : List (PyDict K V)} {e : Err}
    (h : ConsRuns args loops isBest perf st vs e) : vs.Nodup ∧ ∀ a ∈ vs, a ∉ st.tried := by
  induction h with
  | done _ => simp
  | skip h ha ht _ ih => rw [← (advance_ok h).1]; exact ih
  | @visit st st' a vs e h ha ht _ ih =>
    obtain ⟨i1, i2⟩ := ih
    have htr : (consRecord isBest perf st' a).tried = a :: st'.tried := rfl
    rw [htr] at i2
    refine ⟨List.nodup_cons.2 ⟨fun hm => i2 a hm List.mem_cons_self, i1⟩, ?_⟩
    intro b hb
    rw [← (advance_ok h).1]
    rw [List.mem_cons] at hb
    rcases hb with rfl | hb
    · exact ht
    · exact fun hm => i2 b hb (List.mem_cons_of_mem _ hm)

/-- C24. No combination is tried twice, over all loops. -/
theorem C24_no_combination_twice {args : PyDict K (ArgVal V)} {loops : Nat} {isBest : P → P → Bool}
    {perf : PyDict K V → P} {order : Option (List K)} {visited : List (PyDict K V)} {e : Err}
    (h : ConsRuns args loops isBest perf (consStart order) visited e) : visited.Nodup :=
  (runs_not_tried h).1

/-! ## What is tried in one loop -/

/-- The better of the best so far and a new combination (the earlier one wins ties). -/
def better (isBest : P → P → Bool) (perf : PyDict K V → P) (b c : PyDict K V) : PyDict K V :=
  if isBest (perf c) (perf b) then c else b

/-- Specification of one pass of coordinate search: `base` is the best combination so far; argument
by argument, every further value is tried with all other arguments as in `base`, and the best
becomes the base for the next argument. -/
def coordSearch (isBest : P → P → Bool) (perf : PyDict K V → P) :
    PyDict K V → List (K × List V) → List (PyDict K V)
  | _, [] => []
  | base, (k, vs) :: rest =>
    vs.map (PyDict.set base k) ++
      coordSearch isBest perf ((vs.map (PyDict.set base k)).foldl (better isBest perf) base) rest

theorem runs_of_advance_eq {args : PyDict K (ArgVal V)} {loops : Nat} {isBest : P → P → Bool}
    {perf : PyDict K V → P} {st st2 : ConsSt K V P} {vs : List (PyDict K V)} {e : Err}
    (he : consAdvance args loops st = consAdvance args loops st2)
    (h : ConsRuns args loops isBest perf st2 vs e) : ConsRuns args loops isBest perf st vs e := by
  cases h with
  | done h1 => exact .done (he.trans h1)
  | skip h1 h2 h3 h4 => exact .skip (he.trans h1) h2 h3 h4
  | visit h1 h2 h3 h4 => exact .visit (he.trans h1) h2 h3 h4

/-- State while argument `k` is varied: base `b`, current value `x`, best value `y`, values `r` to
come, arguments `later` still to be done. -/
private structure Phase (perf : PyDict K V → P) (st : ConsSt K V P) (pre : List K) (k : K) (r : List V)
    (later : List (K × List V)) (b : PyDict K V) (x y : V) : Prop where
  order : st.order = some (pre ++ k :: later.map Prod.fst)
  target : st.target = pre.length
  loop : st.currentLoop = 1
  curr : st.currArgs = some (PyDict.set b k x)
  best : st.bestArgs = PyDict.set b k y
  bestP : st.bestPerformance = some (perf (PyDict.set b k y))
  tune : PyDict.get? st.tune k = some r
  tuneLater : ∀ p ∈ later, PyDict.get? st.tune p.1 = some p.2
  nodup : (k :: later.map Prod.fst).Nodup
  vals : r.Nodup
  valsLater : ∀ p ∈ later, p.2.Nodup
  has : ∀ p ∈ later, (PyDict.get? b p.1).isSome
  fresh : ∀ p ∈ later, ∀ v ∈ p.2, PyDict.get? b p.1 ≠ some v
  triedK : ∀ t ∈ st.tried, ∀ v ∈ r, PyDict.get? t k ≠ some v
  triedLater : ∀ t ∈ st.tried, ∀ p ∈ later, PyDict.get? t p.1 = PyDict.get? b p.1

private theorem phase_advance {args : PyDict K (ArgVal V)} {perf : PyDict K V → P} {st : ConsSt K V P}
    {pre : List K} {k : K} {r : List V} {later : List (K × List V)} {b : PyDict K V} {x y : V}
    (h : Phase perf st pre k r later b x y) :
    consAdvance args 1 st = match r with
      | [] => exhausted args 1 st (pre ++ k :: later.map Prod.fst) (PyDict.set b k x) k
      | _ :: _ => takeNext st (PyDict.set b k x) k := by
  unfold consAdvance
  rw [if_neg (by rw [h.loop]; decide), h.curr]
  simp only [h.order, Option.getD_some]
  cases hp : pre ++ k :: later.map Prod.fst with
  | nil => simp at hp
  | cons o os =>
    simp only
    have hk : (o :: os)[st.target]? = some k := by rw [← hp, h.target]; simp
    rw [hk]
    simp only [h.tune]
    cases r <;> rfl

/-- One value of the current argument. -/
private theorem phase_step (args : PyDict K (ArgVal V)) (isBest : P → P → Bool) (perf : PyDict K V → P)
    {st : ConsSt K V P} {pre : List K} {k : K} {v : V} {r : List V} {later : List (K × List V)}
    {b : PyDict K V} {x y : V} (h : Phase perf st pre k (v :: r) later b x y)
    (ih : ∀ (z : V) (st' : ConsSt K V P), Phase perf st' pre k r later b v z →
      ConsRuns args 1 isBest perf st' (r.map (PyDict.set b k) ++ coordSearch isBest perf
          ((r.map (PyDict.set b k)).foldl (better isBest perf) (PyDict.set b k z)) later) .StopIteration) :
    ConsRuns args 1 isBest perf st ((v :: r).map (PyDict.set b k) ++ coordSearch isBest perf
          (((v :: r).map (PyDict.set b k)).foldl (better isBest perf) (PyDict.set b k y)) later)
        .StopIteration := by
  have hnd := h.vals
  rw [List.nodup_cons] at hnd
  have hk := h.nodup
  rw [List.nodup_cons] at hk
  let st' : ConsSt K V P := { st with currArgs := some (PyDict.set b k v), tune := PyDict.set st.tune k r }
  have hadv : consAdvance args 1 st = .ok st' := by
    rw [phase_advance h]
    simp only [takeNext, h.tune, PyDict.set_set]
    rfl
  have hbest : ∃ z, better isBest perf (PyDict.set b k y) (PyDict.set b k v) = PyDict.set b k z ∧
      (consRecord isBest perf st' (PyDict.set b k v)).bestArgs = PyDict.set b k z ∧
      (consRecord isBest perf st' (PyDict.set b k v)).bestPerformance = some (perf (PyDict.set b k z)) := by
    have hbp : st'.bestPerformance = some (perf (PyDict.set b k y)) := h.bestP
    have hba : st'.bestArgs = PyDict.set b k y := h.best
    unfold better consRecord
    simp only [hbp, hba]
    by_cases hb : isBest (perf (PyDict.set b k v)) (perf (PyDict.set b k y)) = true
    · exact ⟨v, by simp [hb]⟩
    · exact ⟨y, by simp [hb]⟩
  obtain ⟨z, hz1, hz2, hz3⟩ := hbest
  have hne_of : ∀ p ∈ later, k ≠ p.1 := fun p hp e => hk.1 (List.mem_map.2 ⟨p, hp, e.symm⟩)
  have hrun := ih z (consRecord isBest perf st' (PyDict.set b k v)) (by
    refine ⟨h.order, h.target, h.loop, rfl, hz2, hz3, PyDict.get?_set_self _ _ _, ?_, h.nodup, hnd.2,
      h.valsLater, h.has, h.fresh, ?_, ?_⟩
    · intro p hp
      show PyDict.get? (PyDict.set st.tune k r) p.1 = _
      rw [PyDict.get?_set, if_neg (hne_of p hp)]
      exact h.tuneLater p hp
    · intro t ht w hw
      have ht' : t ∈ PyDict.set b k v :: st.tried := ht
      rw [List.mem_cons] at ht'
      rcases ht' with rfl | ht'
      · rw [PyDict.get?_set_self]
        intro e
        cases e
        exact hnd.1 hw
      · exact h.triedK t ht' w (List.mem_cons_of_mem _ hw)
    · intro t ht p hp
      have ht' : t ∈ PyDict.set b k v :: st.tried := ht
      rw [List.mem_cons] at ht'
      rcases ht' with rfl | ht'
      · rw [PyDict.get?_set, if_neg (hne_of p hp)]
      · exact h.triedLater t ht' p hp)
  simp only [List.map_cons, List.foldl_cons, hz1, List.cons_append]
  refine .visit hadv rfl ?_ hrun
  intro hm
  exact h.triedK _ hm v List.mem_cons_self (PyDict.get?_set_self _ _ _)

private theorem phase_runs (args : PyDict K (ArgVal V)) (isBest : P → P → Bool) (perf : PyDict K V → P)
    (later : List (K × List V)) : ∀ (r : List V) (pre : List K) (k : K) (b : PyDict K V) (x y : V)
      (st : ConsSt K V P), Phase perf st pre k r later b x y →
      (∀ p ∈ later.dropLast, p.2 ≠ []) →
      ConsRuns args 1 isBest perf st
        (r.map (PyDict.set b k) ++ coordSearch isBest perf
          ((r.map (PyDict.set b k)).foldl (better isBest perf) (PyDict.set b k y)) later)
        .StopIteration := by
  induction later with
  | nil =>
    intro r
    induction r with
    | nil =>
      intro pre k b x y st h _
      refine .done ?_
      rw [phase_advance h]
      unfold exhausted
      rw [List.getElem?_eq_none (by rw [h.target]; simp)]
      simp [h.loop]
    | cons v r ih =>
      intro pre k b x y st h hne
      exact phase_step args isBest perf h (fun z st' h' => ih pre k b v z st' h' hne)
  | cons q later ihL =>
    obtain ⟨k2, vs2⟩ := q
    intro r
    induction r with
    | nil =>
      intro pre k b x y st h hne
      have hnd := h.nodup
      simp only [List.map_cons, List.nodup_cons, List.mem_cons, not_or] at hnd
      have hadv : consAdvance args 1 st = takeNext
          { st with target := st.target + 1, currArgs := some (PyDict.set b k y) } (PyDict.set b k y) k2 := by
        rw [phase_advance h]
        unfold exhausted
        have hnx : (pre ++ k :: ((k2, vs2) :: later).map Prod.fst)[st.target + 1]? = some k2 := by
          rw [h.target, List.getElem?_append_right (by omega)]
          simp
        rw [hnx]
        simp only [restoreBest, h.best, PyDict.get?_set_self, bind, Except.bind, PyDict.set_set]
      have ht2 : PyDict.get? st.tune k2 = some vs2 := h.tuneLater (k2, vs2) (by simp)
      cases vs2 with
      | nil =>
        -- only possible for the last argument
        have hl : later = [] := by
          cases later with
          | nil => rfl
          | cons p ps => exact absurd rfl (hne (k2, []) (by simp))
        subst hl
        refine .done ?_
        rw [hadv]
        simp [takeNext, ht2]
      | cons v2 r2 =>
        obtain ⟨f2, hf2⟩ := Option.isSome_iff_exists.1 (h.has (k2, v2 :: r2) (by simp))
        have hB2 : PyDict.get? (PyDict.set b k y) k2 = some f2 := by
          rw [PyDict.get?_set, if_neg (fun e => hnd.1.1 e)]; exact hf2
        have hset : PyDict.set (PyDict.set b k y) k2 f2 = PyDict.set b k y := PyDict.set_get?_self hB2
        have hne_of : ∀ p ∈ later, k ≠ p.1 := fun p hp e =>
          hnd.1.2 (List.mem_map.2 ⟨p, hp, e.symm⟩)
        let st2 : ConsSt K V P := { st with target := st.target + 1, currArgs := some (PyDict.set b k y) }
        have hph : Phase perf st2 (pre ++ [k]) k2 (v2 :: r2) later (PyDict.set b k y) f2 f2 := by
          refine ⟨?_, ?_, h.loop, ?_, ?_, ?_, ht2, ?_, ?_, ?_, ?_, ?_, ?_, ?_, ?_⟩
          · show st.order = _
            rw [h.order]; simp
          · show st.target + 1 = _
            rw [h.target]; simp
          · show some _ = some _
            rw [hset]
          · show st.bestArgs = _
            rw [hset, h.best]
          · show st.bestPerformance = _
            rw [hset, h.bestP]
          · exact fun p hp => h.tuneLater p (List.mem_cons_of_mem _ hp)
          · rw [List.nodup_cons]; exact hnd.2
          · exact h.valsLater (k2, v2 :: r2) (by simp)
          · exact fun p hp => h.valsLater p (List.mem_cons_of_mem _ hp)
          · intro p hp
            rw [PyDict.get?_set, if_neg (hne_of p hp)]
            exact h.has p (List.mem_cons_of_mem _ hp)
          · intro p hp
            rw [PyDict.get?_set, if_neg (hne_of p hp)]
            exact h.fresh p (List.mem_cons_of_mem _ hp)
          · intro t ht v hv
            rw [h.triedLater t ht (k2, v2 :: r2) (by simp)]
            exact h.fresh (k2, v2 :: r2) (by simp) v hv
          · intro t ht p hp
            rw [PyDict.get?_set, if_neg (hne_of p hp)]
            exact h.triedLater t ht p (List.mem_cons_of_mem _ hp)
        have hrun := ihL (v2 :: r2) (pre ++ [k]) k2 (PyDict.set b k y) f2 f2 st2 hph (by
          intro p hp
          apply hne p
          cases later with
          | nil => simp at hp
          | cons q qs => rw [List.dropLast_cons_cons]; exact List.mem_cons_of_mem _ hp)
        rw [hset] at hrun
        have he : consAdvance args 1 st = consAdvance args 1 st2 := by
          rw [hadv, phase_advance hph, hset]
        simp only [List.map_nil, List.foldl_nil, List.nil_append]
        exact runs_of_advance_eq he hrun
    | cons v r ih =>
      intro pre k b x y st h hne
      exact phase_step args isBest perf h (fun z st' h' => ih pre k b v z st' h' hne)

/-- The first value of an argument. -/
def ArgVal.first? : ArgVal V → Option V
  | .fixed v => some v
  | .tune vs => vs.head?

/-- Is the argument to be tuned? -/
def ArgVal.isTune : ArgVal V → Bool
  | .fixed _ => false
  | .tune _ => true

/-- The first values of all arguments. -/
def firstArgs (args : PyDict K (ArgVal V)) : PyDict K V :=
  args.filterMap (fun p => p.2.first?.map (fun v => (p.1, v)))

/-- The arguments to be tuned, in the order given by the user. -/
def tunedKeys (args : PyDict K (ArgVal V)) : List K := PyDict.keys (args.filter (fun p => p.2.isTune))

/-- The values of an argument after its first. -/
def furtherValues (args : PyDict K (ArgVal V)) (k : K) : List V :=
  ((PyDict.get? args k).map (fun a => a.values.tail)).getD []

def tails (args : PyDict K (ArgVal V)) : PyDict K (List V) :=
  (args.filter (fun p => p.2.isTune)).map (fun p => (p.1, p.2.values.tail))

theorem keys_firstArgs {args : PyDict K (ArgVal V)} (hne : ∀ p ∈ args, p.2.values ≠ []) :
    PyDict.keys (firstArgs args) = PyDict.keys args := by
  induction args with
  | nil => rfl
  | cons p rest ih =>
    obtain ⟨k, a⟩ := p
    have ih := ih (fun p hp => hne p (List.mem_cons_of_mem _ hp))
    have h1 := hne (k, a) List.mem_cons_self
    have hc : ∀ v, a.first? = some v → firstArgs ((k, a) :: rest) = (k, v) :: firstArgs rest := by
      intro v hv
      unfold firstArgs
      rw [List.filterMap_cons_some (b := (k, v))]
      simp [hv]
    cases a with
    | fixed v => rw [hc v rfl, PyDict.keys_cons, PyDict.keys_cons, ih]
    | tune vs =>
      cases vs with
      | nil => simp [ArgVal.values] at h1
      | cons v vs => rw [hc v rfl, PyDict.keys_cons, PyDict.keys_cons, ih]

theorem consInit_eq (given : Option (List K)) (args : PyDict K (ArgVal V)) :
    ∀ (curr : PyDict K V) (tune : PyDict K (List V)) (ord0 : List K),
    (PyDict.keys args).Nodup → (∀ p ∈ args, p.2.values ≠ []) →
    (∀ k ∈ PyDict.keys args, k ∉ PyDict.keys curr ∧ k ∉ PyDict.keys tune) →
    (∀ l, given = some l → ∀ k ∈ tunedKeys args, k ∈ l) →
    consInit given args curr tune ord0 =
      .ok (curr ++ firstArgs args, tune ++ tails args,
        if given = none then ord0 ++ tunedKeys args else ord0) := by
  induction args with
  | nil => intro curr tune ord0 _ _ _ _; simp [consInit, firstArgs, tails, tunedKeys]
  | cons p rest ih =>
    obtain ⟨k, a⟩ := p
    intro curr tune ord0 hn hne hd hg
    rw [PyDict.keys_cons, List.nodup_cons] at hn
    have h1 := hne (k, a) List.mem_cons_self
    have hk := hd k (by simp)
    have hne' := fun p hp => hne p (List.mem_cons_of_mem (k, a) hp)
    have hd' : ∀ k' ∈ PyDict.keys rest, k' ≠ k ∧ k' ∉ PyDict.keys curr ∧ k' ∉ PyDict.keys tune :=
      fun k' hk' => ⟨fun e => hn.1 (e ▸ hk'), hd k' (by simp [hk'])⟩
    cases a with
    | fixed v =>
      simp only [consInit]
      rw [ih _ _ _ hn.2 hne' (fun k' hk' => ⟨by rw [PyDict.mem_keys_set]; simp [hd' k' hk'], (hd' k' hk').2.2⟩)
        (fun l hl k' hk' => hg l hl k' (by simpa [tunedKeys, ArgVal.isTune] using hk'))]
      rw [PyDict.set_of_not_mem hk.1]
      simp [firstArgs, ArgVal.first?, tails, tunedKeys, ArgVal.isTune]
    | tune vs =>
      cases vs with
      | nil => simp [ArgVal.values] at h1
      | cons v vs =>
        have hsub : ∀ l, given = some l → ∀ k' ∈ tunedKeys rest, k' ∈ l := fun l hl k' hk' =>
          hg l hl k' (by
            unfold tunedKeys at hk' ⊢
            rw [List.filter_cons, if_pos (by rfl), PyDict.keys_cons]
            exact List.mem_cons_of_mem _ hk')
        have hdd : ∀ k' ∈ PyDict.keys rest, k' ∉ PyDict.keys (PyDict.set curr k v) ∧
            k' ∉ PyDict.keys (PyDict.set tune k vs) := fun k' hk' => by
          rw [PyDict.mem_keys_set, PyDict.mem_keys_set]; simp [hd' k' hk']
        cases given with
        | none =>
          simp only [consInit]
          rw [ih _ _ _ hn.2 hne' hdd (by simp), PyDict.set_of_not_mem hk.1, PyDict.set_of_not_mem hk.2]
          simp [firstArgs, ArgVal.first?, tails, tunedKeys, ArgVal.isTune, ArgVal.values]
        | some l =>
          simp only [consInit]
          rw [if_pos (hg l rfl k (by
            unfold tunedKeys; rw [List.filter_cons, if_pos (by rfl), PyDict.keys_cons]; simp))]
          rw [ih _ _ _ hn.2 hne' hdd hsub, PyDict.set_of_not_mem hk.1, PyDict.set_of_not_mem hk.2]
          simp [firstArgs, ArgVal.first?, tails, tunedKeys, ArgVal.isTune, ArgVal.values]

theorem mem_tunedKeys {args : PyDict K (ArgVal V)} (hn : (PyDict.keys args).Nodup) {k : K} :
    k ∈ tunedKeys args ↔ ∃ vs, PyDict.get? args k = some (.tune vs) := by
  unfold tunedKeys PyDict.keys
  simp only [List.mem_map, List.mem_filter]
  constructor
  · rintro ⟨⟨k', a⟩, ⟨h1, h2⟩, rfl⟩
    cases a with
    | fixed v => simp [ArgVal.isTune] at h2
    | tune vs => exact ⟨vs, PyDict.get?_of_mem hn h1⟩
  · rintro ⟨vs, h⟩
    exact ⟨(k, .tune vs), ⟨PyDict.mem_of_get? h, rfl⟩, rfl⟩

theorem get?_firstArgs {args : PyDict K (ArgVal V)} (hn : (PyDict.keys args).Nodup)
    (hne : ∀ p ∈ args, p.2.values ≠ []) (k : K) (v : V) :
    PyDict.get? (firstArgs args) k = some v ↔ ∃ a, PyDict.get? args k = some a ∧ a.first? = some v := by
  have hk := keys_firstArgs hne
  constructor
  · intro h
    have := PyDict.mem_of_get? h
    unfold firstArgs at this
    simp only [List.mem_filterMap] at this
    obtain ⟨⟨k', a⟩, h1, h2⟩ := this
    cases ha : a.first? with
    | none => simp [ha] at h2
    | some w =>
      simp only [ha, Option.map_some, Option.some.injEq, Prod.mk.injEq] at h2
      obtain ⟨rfl, rfl⟩ := h2
      exact ⟨a, PyDict.get?_of_mem hn h1, ha⟩
  · rintro ⟨a, h1, h2⟩
    apply PyDict.get?_of_mem (by rw [hk]; exact hn)
    unfold firstArgs
    rw [List.mem_filterMap]
    exact ⟨(k, a), PyDict.mem_of_get? h1, by simp [h2]⟩

theorem get?_tails {args : PyDict K (ArgVal V)} (hn : (PyDict.keys args).Nodup) {k : K}
    (hk : k ∈ tunedKeys args) : PyDict.get? (tails args) k = some (furtherValues args k) := by
  obtain ⟨vs, hv⟩ := (mem_tunedKeys hn).1 hk
  apply PyDict.get?_of_mem
  · unfold tails
    have : PyDict.keys ((args.filter (fun p => p.2.isTune)).map (fun p => (p.1, p.2.values.tail))) =
        PyDict.keys (args.filter (fun p => p.2.isTune)) := by
      unfold PyDict.keys; rw [List.map_map]; rfl
    rw [this]
    exact hn.sublist ((List.filter_sublist).map _)
  · unfold tails
    rw [List.mem_map]
    exact ⟨(k, .tune vs), List.mem_filter.2 ⟨PyDict.mem_of_get? hv, rfl⟩, by simp [furtherValues, hv]⟩

theorem runs_det {args : PyDict K (ArgVal V)} {loops : Nat} {isBest : P → P → Bool}
    {perf : PyDict K V → P} {st : ConsSt K V P} {vs : List (PyDict K V)} {e : Err}
    (h : ConsRuns args loops isBest perf st vs e) : ∀ {vs' e'},
    ConsRuns args loops isBest perf st vs' e' → vs' = vs ∧ e' = e := by
  induction h with
  | done h1 =>
    intro vs' e' h'
    cases h' with
    | done h2 => rw [h1] at h2; cases h2; exact ⟨rfl, rfl⟩
    | skip h2 => rw [h1] at h2; cases h2
    | visit h2 => rw [h1] at h2; cases h2
  | skip h1 h2 h3 _ ih =>
    intro vs' e' h'
    cases h' with
    | done g1 => rw [h1] at g1; cases g1
    | skip g1 g2 g3 g4 => rw [h1] at g1; cases g1; exact ih g4
    | visit g1 g2 g3 g4 =>
      rw [h1] at g1; cases g1
      rw [h2] at g2; cases g2
      exact absurd h3 g3
  | visit h1 h2 h3 _ ih =>
    intro vs' e' h'
    cases h' with
    | done g1 => rw [h1] at g1; cases g1
    | skip g1 g2 g3 g4 =>
      rw [h1] at g1; cases g1
      rw [h2] at g2; cases g2
      exact absurd g3 h3
    | visit g1 g2 g3 g4 =>
      rw [h1] at g1; cases g1
      rw [h2] at g2; cases g2
      obtain ⟨rfl, rfl⟩ := ih g4
      exact ⟨rfl, rfl⟩

/-- C24. With one loop, consecutive tuning tries the first values of all arguments and then,
argument by argument in order (the order of the arguments, or the order given), each further value
with all other arguments at their best so far – later ones at their first value.  This holds when
every argument to be tuned has more than one value, the first and the last in order excepted. -/
theorem C24_one_loop_partial (args : PyDict K (ArgVal V)) (isBest : P → P → Bool) (perf : PyDict K V → P)
    (hn : (PyDict.keys args).Nodup) (hne : ∀ p ∈ args, p.2.values ≠ [])
    (hv : ∀ p ∈ args, p.2.values.Nodup) {order : Option (List K)} {ord : List K}
    (hord : (order = none ∧ ord = tunedKeys args) ∨ (order = some ord ∧ ord.Perm (tunedKeys args)))
    (hmid : ∀ k ∈ ord.tail.dropLast, furtherValues args k ≠ [])
    (visited : List (PyDict K V)) (e : Err) :
    ConsRuns args 1 isBest perf (consStart order) visited e ↔
      visited = firstArgs args :: coordSearch isBest perf (firstArgs args)
        (ord.map (fun k => (k, furtherValues args k))) ∧ e = .StopIteration := by
  suffices H : ConsRuns args 1 isBest perf (consStart order)
      (firstArgs args :: coordSearch isBest perf (firstArgs args)
        (ord.map (fun k => (k, furtherValues args k)))) .StopIteration by
    constructor
    · exact fun h => runs_det H h
    · rintro ⟨rfl, rfl⟩; exact H
  have hmem : ∀ k, k ∈ ord ↔ k ∈ tunedKeys args := by
    rcases hord with ⟨_, h⟩ | ⟨_, h⟩
    · rw [h]; simp
    · exact fun k => h.mem_iff
  have hordn : ord.Nodup := by
    have : (tunedKeys args).Nodup := hn.sublist ((List.filter_sublist).map _)
    rcases hord with ⟨_, h⟩ | ⟨_, h⟩
    · rw [h]; exact this
    · exact h.nodup_iff.2 this
  have hinit : consInit order args [] [] [] =
      .ok (firstArgs args, tails args, if order = none then tunedKeys args else []) := by
    have := consInit_eq order args [] [] [] hn hne (by simp) (by
      intro l hl k hk
      rcases hord with ⟨h, _⟩ | ⟨h, _⟩
      · rw [h] at hl; cases hl
      · rw [h] at hl; cases hl; exact (hmem k).2 hk)
    simpa using this
  have hget : order.getD (if order = none then tunedKeys args else []) = ord := by
    rcases hord with ⟨h, h2⟩ | ⟨h, _⟩
    · rw [h, h2]; simp
    · rw [h]; simp
  let st1 : ConsSt K V P := ⟨some ord, 1, tails args, 0, none, [], some (firstArgs args), []⟩
  have hadv : consAdvance args 1 (consStart order : ConsSt K V P) = .ok st1 := by
    unfold consAdvance
    rw [if_neg (by simp [consStart])]
    simp only [consStart, hinit]
    simp only [bind, Except.bind, pure, Except.pure, hget]
    rfl
  refine .visit hadv rfl (by simp [st1]) ?_
  have hfirst : ∀ k ∈ ord, ∃ f, PyDict.get? (firstArgs args) k = some f ∧
      f ∉ furtherValues args k ∧ (furtherValues args k).Nodup := by
    intro k hk
    obtain ⟨vs, hvs⟩ := (mem_tunedKeys hn).1 ((hmem k).1 hk)
    have h1 := hne _ (PyDict.mem_of_get? hvs)
    have h2 := hv _ (PyDict.mem_of_get? hvs)
    cases vs with
    | nil => simp [ArgVal.values] at h1
    | cons v vs =>
      simp only [ArgVal.values, List.nodup_cons] at h2
      refine ⟨v, (get?_firstArgs hn hne k v).2 ⟨_, hvs, rfl⟩, ?_⟩
      simpa [furtherValues, hvs, ArgVal.values] using h2
  cases ord with
  | nil =>
    refine .done ?_
    unfold consAdvance
    rw [if_neg (by simp [consRecord, st1])]
    rfl
  | cons k0 rest =>
    obtain ⟨f, hf1, hf2, hf3⟩ := hfirst k0 (by simp)
    have hset : PyDict.set (firstArgs args) k0 f = firstArgs args := PyDict.set_get?_self hf1
    have := phase_runs args isBest perf (rest.map (fun k => (k, furtherValues args k)))
      (furtherValues args k0) [] k0 (firstArgs args) f f (consRecord isBest perf st1 (firstArgs args)) (by
        refine ⟨?_, rfl, rfl, ?_, ?_, ?_, get?_tails hn ((hmem k0).1 (by simp)), ?_, ?_, hf3, ?_, ?_, ?_, ?_, ?_⟩
        · show some _ = some _
          simp [List.map_map, Function.comp_def]
        · show some _ = some _
          rw [hset]
        · show firstArgs args = _
          rw [hset]
        · show some _ = some _
          rw [hset]
        · intro p hp
          obtain ⟨k, hk, rfl⟩ := List.mem_map.1 hp
          exact get?_tails hn ((hmem k).1 (by simp [hk]))
        · simpa [List.map_map, Function.comp_def] using hordn
        · intro p hp
          obtain ⟨k, hk, rfl⟩ := List.mem_map.1 hp
          obtain ⟨_, _, _, h⟩ := hfirst k (by simp [hk])
          exact h
        · intro p hp
          obtain ⟨k, hk, rfl⟩ := List.mem_map.1 hp
          obtain ⟨_, h, _⟩ := hfirst k (by simp [hk])
          simp [h]
        · intro p hp v hv'
          obtain ⟨k, hk, rfl⟩ := List.mem_map.1 hp
          obtain ⟨w, h, h2, _⟩ := hfirst k (by simp [hk])
          simp only [h]
          intro he; cases he
          exact h2 hv'
        · intro t ht v hv'
          have : t = firstArgs args := by simpa [consRecord, st1] using ht
          subst this
          rw [hf1]; intro he; cases he; exact hf2 hv'
        · intro t ht p hp
          have : t = firstArgs args := by simpa [consRecord, st1] using ht
          subst this; rfl) (by
        intro p hp
        rw [← List.map_dropLast] at hp
        obtain ⟨k, hk, rfl⟩ := List.mem_map.1 hp
        exact hmid k (by simpa using hk))
    rw [hset] at this
    exact this

/-- C24 fails when an argument in the middle has a single value: tuning stops there and the
remaining arguments are never varied (here `c = 8` is never tried). -/
theorem C24_single_value_violated :
    ∃ (args : PyDict String (ArgVal Int)) (visited : List (PyDict String Int)),
      args = [("a", .tune [1, 2]), ("b", .tune [5]), ("c", .tune [7, 8])] ∧
      ConsRuns args 1 (fun x y : Int => decide (x < y)) (fun _ => 0) (consStart none) visited .StopIteration ∧
      ∀ c ∈ visited, PyDict.get? c "c" ≠ some 8 := by
  refine ⟨_, [[("a", 1), ("b", 5), ("c", 7)], [("a", 2), ("b", 5), ("c", 7)]], rfl, ?_, by decide⟩
  refine .visit (a := [("a", 1), ("b", 5), ("c", 7)]) rfl rfl (by decide) ?_
  refine .visit (a := [("a", 2), ("b", 5), ("c", 7)]) rfl rfl (by decide) ?_
  exact .done rfl

example : coordSearch (fun x y : Int => decide (x < y))
    (fun c => ((PyDict.get? c "a").getD 0 - 2) * ((PyDict.get? c "a").getD 0 - 2) + (PyDict.get? c "b").getD 0)
    [("a", 1), ("b", 5)] [("a", [2, 3]), ("b", [4])] =
    [[("a", 2), ("b", 5)], [("a", 3), ("b", 5)], [("a", 2), ("b", 4)]] := by decide
example : tunedKeys [("a", .tune [1, 2, 3]), ("x", .fixed 0), ("b", .tune [5, 4])] = ["a", "b"] := by decide

end Nimble
