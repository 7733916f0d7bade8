import Verif.Model.TuneResults
import Verif.Props.Tuning

/-!
# C76: the results a Tuning object reports
-/

namespace Nimble

variable {F A P : Type}

/-- Neither result is better. -/
def tied (isBest : P → P → Bool) (p q : P) : Bool := !isBest p q && !isBest q p

/-- The recorded results of a tuning in the order of validation. -/
def recordedOf (calls : List (A × Bool × P)) : List (P × A) :=
  calls.filterMap (fun c => if c.2.1 then some (c.2.2, c.1) else none)

theorem recorded_ok (calls : List (A × Bool × P)) :
    recorded (calls.map (fun c => (c.1, c.2.1, (.ok c.2.2 : Res P)))) = recordedOf calls := by
  unfold recorded recordedOf
  rw [List.filterMap_map]
  congr 1
  funext c
  obtain ⟨a, r, p⟩ := c
  cases r <;> rfl

theorem zip_map_fst_snd {α β : Type} (l : List (α × β)) : List.zip (l.map Prod.fst) (l.map Prod.snd) = l := by
  induction l with
  | nil => rfl
  | cons x l ih => simp [ih]

/-- The sort of the results: the first best result is at the head. -/
theorem mergeSort_head {isBest : P → P → Bool} (ho : StrictOrder isBest) (b : P × A) (post : List (P × A)) :
    ∀ (pre : List (P × A)), (∀ q ∈ pre, isBest b.1 q.1 = true) → (∀ q ∈ pre ++ b :: post, isBest q.1 b.1 = false) →
    ((pre ++ b :: post).mergeSort (fun x y => !isBest y.1 x.1)).head? = some b := by
  have htr : ∀ (x y z : P × A), (!isBest y.1 x.1) = true → (!isBest z.1 y.1) = true → (!isBest z.1 x.1) = true := by
    intro x y z h1 h2
    simp only [Bool.not_eq_true'] at *
    exact ho.negTrans _ _ _ h2 h1
  have htot : ∀ (x y : P × A), ((!isBest y.1 x.1) || !isBest x.1 y.1) = true := by
    intro x y
    cases h : isBest y.1 x.1 with
    | false => rfl
    | true =>
      cases h' : isBest x.1 y.1 with
      | false => rfl
      | true => exact absurd (ho.trans _ _ _ h h') (by rw [ho.irrefl]; simp)
  intro pre
  induction pre with
  | nil =>
    intro _ h
    obtain ⟨l1, l2, e1, e2, e3⟩ := List.mergeSort_cons (le := fun (x y : P × A) => !isBest y.1 x.1) htr htot b post
    have : l1 = [] := by
      cases l1 with
      | nil => rfl
      | cons x l1 =>
        have hx := e3 x List.mem_cons_self
        have hm : x ∈ post := by
          rw [← (List.mergeSort_perm post _).mem_iff, e2]; exact List.mem_cons_self
        rw [h x (by simp [hm])] at hx
        cases hx
    rw [List.nil_append, e1, this]
    rfl
  | cons q pre ih =>
    intro h1 h2
    have ih' := ih (fun x hx => h1 x (List.mem_cons_of_mem _ hx)) (fun x hx => h2 x (List.mem_cons_of_mem _ hx))
    obtain ⟨l1, l2, e1, e2, e3⟩ :=
      List.mergeSort_cons (le := fun (x y : P × A) => !isBest y.1 x.1) htr htot q (pre ++ b :: post)
    rw [e2] at ih'
    rw [List.cons_append, e1]
    cases l1 with
    | cons x l1 => simpa using ih'
    | nil =>
      have hp := List.pairwise_mergeSort (le := fun (x y : P × A) => !isBest y.1 x.1) htr htot (q :: (pre ++ b :: post))
      rw [e1] at hp
      cases l2 with
      | nil => cases ih'
      | cons y l2 =>
        have hy : y = b := by simpa using ih'
        subst hy
        have := (List.pairwise_cons.1 hp).1 y List.mem_cons_self
        rw [h1 q List.mem_cons_self] at this
        cases this

/-- C76. After a successful tuning with the function `f`, `allResults` and `allArguments` list exactly the recorded
results, each with its arguments, so that no result is better than an earlier one; equally good results are
in the order in which they were validated; and the first entries are `bestResult` and `bestArguments`. -/
theorem C76_results {isBest : F → P → P → Bool} {s : Session F A P} {t t' : TuningObj F A P}
    {pf : Option F} {f : F} (hf : t.perf.or pf = some f) (ho : StrictOrder (isBest f))
    (h : t.tune isBest s pf = (t', .ok ())) :
    ∃ l : List (P × A), t'.allResults = some (l.map Prod.fst) ∧ t'.allArguments = some (l.map Prod.snd) ∧
      l.Perm (recordedOf (s.calls f)) ∧
      l.Pairwise (fun x y => isBest f y.1 x.1 = false) ∧
      (∀ p, l.filter (fun x => tied (isBest f) p x.1) = (recordedOf (s.calls f)).filter (fun x => tied (isBest f) p x.1)) ∧
      l.head? = t'.best := by
  unfold TuningObj.tune at h
  rw [hf] at h
  dsimp only at h
  unfold TuningObj.tuneWith at h
  cases he : s.ending f with
  | error e => rw [he] at h; exact absurd (congrArg Prod.snd h) (by simp)
  | ok _ =>
    rw [he] at h
    have e1 := congrArg Prod.fst h
    dsimp only at e1
    subst e1
    obtain ⟨r1, r2, r3⟩ := C23_best_result_partial ho ((s.calls f).map (fun c => (c.1, c.2.1, (.ok c.2.2 : Res P))))
    rw [recorded_ok] at r1 r2 r3
    have hz : List.zip (TuningObj.validated (isBest f) (s.calls f)).results
        (TuningObj.validated (isBest f) (s.calls f)).arguments = recordedOf (s.calls f) := by
      unfold TuningObj.validated
      rw [r1, r2, zip_map_fst_snd]
    have htr : ∀ (x y z : P × A), (!isBest f y.1 x.1) = true → (!isBest f z.1 y.1) = true →
        (!isBest f z.1 x.1) = true := by
      intro x y z h1 h2
      simp only [Bool.not_eq_true'] at *
      exact ho.negTrans _ _ _ h2 h1
    have htot : ∀ (x y : P × A), ((!isBest f y.1 x.1) || !isBest f x.1 y.1) = true := by
      intro x y
      cases h : isBest f y.1 x.1 with
      | false => rfl
      | true =>
        cases h' : isBest f x.1 y.1 with
        | false => rfl
        | true => exact absurd (ho.trans _ _ _ h h') (by rw [ho.irrefl]; simp)
    refine ⟨TuningObj.ranking (isBest f) (TuningObj.validated (isBest f) (s.calls f)), rfl, rfl, ?_, ?_, ?_, ?_⟩
    · unfold TuningObj.ranking
      rw [hz]
      exact List.mergeSort_perm _ _
    · unfold TuningObj.ranking
      rw [hz]
      refine (List.pairwise_mergeSort (le := fun (x y : P × A) => !isBest f y.1 x.1) htr htot _).imp ?_
      intro x y hxy
      simpa using hxy
    · intro p
      unfold TuningObj.ranking
      rw [hz]
      have hsub : ((recordedOf (s.calls f)).filter (fun x => tied (isBest f) p x.1)).Sublist
          ((recordedOf (s.calls f)).mergeSort (fun x y => !isBest f y.1 x.1)) := by
        refine List.sublist_mergeSort htr htot ?_ List.filter_sublist
        rw [List.pairwise_filter]
        refine List.pairwise_of_forall_mem_list ?_
        intro x _ y _ hx hy
        unfold tied at hx hy
        simp only [Bool.and_eq_true, Bool.not_eq_true'] at hx hy ⊢
        exact ho.negTrans _ _ _ hy.2 hx.1
      have hsub' : ((recordedOf (s.calls f)).filter (fun x => tied (isBest f) p x.1)).Sublist
          (((recordedOf (s.calls f)).mergeSort (fun x y => !isBest f y.1 x.1)).filter
            (fun x => tied (isBest f) p x.1)) := by
        have := hsub.filter (fun x => tied (isBest f) p x.1)
        rwa [List.filter_filter, show (fun x : P × A => tied (isBest f) p x.1 && tied (isBest f) p x.1) =
          (fun x => tied (isBest f) p x.1) by funext x; simp] at this
      refine (hsub'.eq_of_length ?_).symm
      exact ((List.mergeSort_perm (recordedOf (s.calls f)) _).symm.filter _).length_eq
    · show _ = (TuningObj.validated (isBest f) (s.calls f)).best
      unfold TuningObj.ranking
      rw [hz]
      unfold TuningObj.validated
      cases hb : (VSt.runAll (isBest f) ((s.calls f).map (fun c => (c.1, c.2.1, (.ok c.2.2 : Res P))))).best with
      | none =>
        rw [hb] at r3
        have : recordedOf (s.calls f) = [] := r3
        rw [this, List.mergeSort_nil]
        rfl
      | some b =>
        rw [hb] at r3
        obtain ⟨pre, post, g1, g2, g3⟩ := r3
        rw [g1] at g3 ⊢
        exact mergeSort_head ho b post pre g2 g3

/-- C76. A performance function given to the Tuning object is used in every tuning, whatever function the calls give. -/
theorem C76_own_function (isBest : F → P → P → Bool) {f : F} {t : TuningObj F A P} (h : t.perf = some f)
    (cs : List (Session F A P × F)) (s : Session F A P) (g : F) :
    (TuningObj.runTests isBest t cs).perf = some f ∧
    (TuningObj.trainAndTest isBest s (TuningObj.runTests isBest t cs) g).1.validator =
      some (TuningObj.validated (isBest f) (s.calls f)) := by
  have main : ∀ (s : Session F A P) (t : TuningObj F A P) (g : F), t.perf = some f →
      (TuningObj.trainAndTest isBest s t g).1.perf = some f ∧
      (TuningObj.trainAndTest isBest s t g).1.validator = some (TuningObj.validated (isBest f) (s.calls f)) := by
    intro s t g ht
    unfold TuningObj.trainAndTest TuningObj.train TuningObj.tune
    rw [ht]
    show (TuningObj.tuneWith isBest s _ f).1.perf = _ ∧ (TuningObj.tuneWith isBest s _ f).1.validator = _
    unfold TuningObj.tuneWith
    cases s.ending f <;> exact ⟨rfl, rfl⟩
  have hp : ∀ (cs : List (Session F A P × F)) (t : TuningObj F A P), t.perf = some f →
      (TuningObj.runTests isBest t cs).perf = some f := by
    intro cs
    induction cs with
    | nil => intro t ht; exact ht
    | cons c cs ih => intro t ht; exact ih _ (main c.1 t c.2 ht).1
  exact ⟨hp cs t h, (main s _ g (hp cs t h)).2⟩

/-- C76. The first `trainAndTest` with a Tuning object without a function tunes with the function of the call. -/
theorem C76_first_call (isBest : F → P → P → Bool) (s : Session F A P) (f : F) :
    (TuningObj.trainAndTest isBest s (TuningObj.new none) f).1.validator =
      some (TuningObj.validated (isBest f) (s.calls f)) := by
  unfold TuningObj.trainAndTest TuningObj.train TuningObj.tune TuningObj.new
  show (TuningObj.tuneWith isBest s _ f).1.validator = _
  unfold TuningObj.tuneWith
  cases s.ending f <;> rfl

/-- C76 violated: every later call tunes with the function of the first one, also if the first one raised: a
`trainAndTest` with `g` after one with `f` selects the arguments that are best for `f`. -/
theorem C76_reuse_violated (isBest : F → P → P → Bool) (s1 s2 : Session F A P) (cs : List (Session F A P × F))
    (f g : F) :
    (TuningObj.trainAndTest isBest s2 (TuningObj.runTests isBest (TuningObj.new none) ((s1, f) :: cs)) g).1.validator =
      some (TuningObj.validated (isBest f) (s2.calls f)) := by
  have h1 : (TuningObj.trainAndTest isBest s1 (TuningObj.new none : TuningObj F A P) f).1.perf = some f := by
    unfold TuningObj.trainAndTest TuningObj.train TuningObj.tune TuningObj.new
    show (TuningObj.tuneWith isBest s1 _ f).1.perf = _
    unfold TuningObj.tuneWith
    cases s1.ending f <;> rfl
  exact (C76_own_function isBest h1 cs s2 g).2

/-- C76. `nimble.train` with a Tuning object without a function is refused and changes nothing. -/
theorem C76_no_function (isBest : F → P → P → Bool) (s : Session F A P) :
    (TuningObj.new none : TuningObj F A P).train isBest s = (TuningObj.new none, .error .InvalidArgumentValue) := rfl

/-- Two tunings: first 3 sets, then one that fails after one set. -/
def sessionA : Session Unit String Nat := ⟨fun _ => [("a", true, 5), ("b", true, 7), ("c", true, 7)], fun _ => .ok ()⟩
def sessionB : Session Unit String Nat := ⟨fun _ => [("d", true, 1)], fun _ => .error .InvalidArgumentValue⟩

/-- The hypotheses of `C76_results` are met. -/
example : ((TuningObj.new (some ())).train (fun _ p q => decide (p > q)) sessionA).2 = .ok () ∧
    ((TuningObj.new (some ())).train (fun _ p q => decide (p > q)) sessionA).1.best = some (7, "b") := by
  refine ⟨rfl, by decide +kernel⟩

/-- C76 violated: after a tuning that raises, `bestResult` and `bestArguments` are those of the failed tuning and
`allResults` those of the one before. -/
theorem C76_failed_tuning_violated :
    let t1 := ((TuningObj.new (some ())).train (fun _ p q => decide (p > q)) sessionA).1
    let t2 := t1.train (fun _ p q => decide (p > q)) sessionB
    t2.2 = .error .InvalidArgumentValue ∧ t2.1.best = some (1, "d") ∧ t2.1.allResults = t1.allResults ∧
    t1.best = some (7, "b") := by
  refine ⟨rfl, by decide +kernel, rfl, by decide +kernel⟩

theorem validated_zip {isBest : P → P → Bool} (ho : StrictOrder isBest) (calls : List (A × Bool × P)) :
    List.zip (TuningObj.validated isBest calls).results (TuningObj.validated isBest calls).arguments =
      recordedOf calls := by
  obtain ⟨r1, r2, _⟩ := C23_best_result_partial ho (calls.map (fun c => (c.1, c.2.1, (.ok c.2.2 : Res P))))
  rw [recorded_ok] at r1 r2
  unfold TuningObj.validated
  rw [r1, r2, zip_map_fst_snd]

theorem map_fst_zip_of_le {α β : Type} : ∀ (l : List α) (m : List β), l.length ≤ m.length →
    (List.zip l m).map Prod.fst = l := by
  intro l
  induction l with
  | nil => intro m _; rfl
  | cons x l ih =>
    intro m h
    cases m with
    | nil => simp at h
    | cons y m =>
      rw [List.zip_cons_cons, List.map_cons, ih m (by simpa using h)]

theorem recordedOf_length (calls : List (A × Bool × P)) : (recordedOf calls).length ≤ calls.length :=
  List.length_filterMap_le _ _

/-- C76. In a cross-validation the fold results do not disturb the results and arguments: they are those of the
ranking without them. -/
theorem C76_cross_results {D : Type} {isBest : P → P → Bool} (ho : StrictOrder isBest)
    (calls : List (A × Bool × P × D)) :
    (TuningObj.crossRanking isBest calls).map Prod.fst =
      TuningObj.ranking isBest (TuningObj.validated isBest (calls.map (fun c => (c.1, c.2.1, c.2.2.1)))) := by
  unfold TuningObj.crossRanking TuningObj.ranking
  rw [List.map_mergeSort (s := fun (a b : P × A) => !isBest b.1 a.1) (fun _ _ _ _ => rfl)]
  rw [map_fst_zip_of_le]
  rw [validated_zip ho]
  refine Nat.le_trans (recordedOf_length _) ?_
  simp

/-- C76. If every validation of a cross-validation is recorded, the entries of `allResults`, `allArguments` and
`deepResults` at one position belong to one validation. The only selection with validations that are not recorded
is the iterative one (tune.py:1096, 1104), which `C76_choice` excludes for a cross-validation. -/
theorem C76_fold_results {D : Type} {isBest : P → P → Bool} (ho : StrictOrder isBest)
    (calls : List (A × Bool × P × D)) (hr : ∀ c ∈ calls, c.2.1 = true) :
    (TuningObj.crossRanking isBest calls).Perm (calls.map (fun c => ((c.2.2.1, c.1), c.2.2.2))) := by
  unfold TuningObj.crossRanking
  refine (List.mergeSort_perm _ _).trans ?_
  rw [validated_zip ho]
  have : List.zip (recordedOf (calls.map (fun c => (c.1, c.2.1, c.2.2.1)))) (calls.map (fun c => c.2.2.2)) =
      calls.map (fun c => ((c.2.2.1, c.1), c.2.2.2)) := by
    clear ho
    induction calls with
    | nil => rfl
    | cons c calls ih =>
      have hc := hr c List.mem_cons_self
      have ih' := ih (fun x hx => hr x (List.mem_cons_of_mem _ hx))
      unfold recordedOf at ih' ⊢
      rw [List.map_cons, List.filterMap_cons]
      rw [hc]
      simp only [if_true, List.map_cons, List.zip_cons_cons]
      rw [ih']
  rw [this]

/-- The hypothesis is needed: with unrecorded validations in between, the k-th recorded result would be reported
with the folds of the k-th validation. -/
theorem unrecorded_folds :
    TuningObj.crossRanking (fun p q => decide ((p : Nat) < q))
      [("a", true, 2, [1, 3]), ("a-", false, 8, [8, 8]), ("a+", false, 9, [9, 9]), ("b", true, 5, [4, 6])] =
      [((2, "a"), [1, 3]), ((5, "b"), [8, 8])] := by
  have : List.zip (List.zip (TuningObj.validated (fun p q => decide ((p : Nat) < q))
      [("a", true, 2), ("a-", false, 8), ("a+", false, 9), ("b", true, 5)]).results
      (TuningObj.validated (fun p q => decide ((p : Nat) < q))
      [("a", true, 2), ("a-", false, 8), ("a+", false, 9), ("b", true, 5)]).arguments)
      [[1, 3], [8, 8], [9, 9], [4, 6]] = [((2, "a"), [1, 3]), ((5, "b"), [8, 8])] := by decide +kernel
  unfold TuningObj.crossRanking
  simp only [List.map_cons, List.map_nil]
  rw [this]
  simp [List.mergeSort, List.MergeSort.Internal.splitInTwo]

/-- The hypothesis of `C76_fold_results` is met: two recorded validations. -/
example : ∀ c ∈ [("a", true, 2, [1, 3]), ("b", true, 5, [4, 6])], c.2.1 = true := by decide

/-- C76. A `Tuning` is made exactly if the selection is known, the validation is known, and a selection that needs
separate validation data (bayesian, iterative, storm) has it and has a limit; capitals, blanks and hyphens in the
names do not matter. -/
theorem C76_choice (selection : String) (validation : ValidationArg) (limits : Bool) (sel val : String) :
    tuningChoice selection validation limits = .ok (sel, val) ↔
      sel = normName selection ∧ val = validationName validation ∧ sel ∈ selectorNames ∧ val ∈ validatorNames ∧
      (sel ∈ dataOnlyNames → limits = true ∧ val = "data") := by
  unfold tuningChoice
  have hc : ∀ (l : List String) (x : String), l.contains x = true ↔ x ∈ l := fun l x => List.contains_iff_mem
  constructor
  · intro h
    split at h
    · cases h
    split at h
    · cases h
    split at h
    · cases h
    split at h
    · cases h
    rename_i h1 h2 h3 h4
    injection h with h
    injection h with e1 e2
    subst e1 e2
    simp only [Bool.not_eq_true', Bool.not_eq_false, Bool.and_eq_true, hc, bne_iff_ne, ne_eq, not_and,
      Bool.not_eq_false', not_not] at h1 h2 h3 h4
    exact ⟨rfl, rfl, h1, h4, fun hd => ⟨h2 hd, h3 hd⟩⟩
  · rintro ⟨rfl, rfl, h1, h4, h5⟩
    rw [if_neg (by simp only [Bool.not_eq_true', Bool.not_eq_false, hc]; exact h1)]
    rw [if_neg, if_neg, if_neg]
    · simp only [Bool.not_eq_true', Bool.not_eq_false, hc]; exact h4
    · simp only [Bool.and_eq_true, hc, bne_iff_ne, ne_eq, not_and, not_not]; exact fun hd => (h5 hd).2
    · simp only [Bool.and_eq_true, hc, Bool.not_eq_true', not_and, Bool.not_eq_false]; exact fun hd => (h5 hd).1

/-- C76. With a cross-validation only the selections that record every validation are accepted. -/
theorem C76_cross_selection {selection : String} {validation : ValidationArg} {limits : Bool} {sel val : String}
    (h : tuningChoice selection validation limits = .ok (sel, val))
    (hv : val = "crossvalidation" ∨ val = "leaveoneout" ∨ val = "leaveonegroupout") :
    sel = "bruteforce" ∨ sel = "consecutive" := by
  obtain ⟨-, -, h1, -, h3⟩ := (C76_choice _ _ _ _ _).1 h
  unfold selectorNames at h1
  simp only [List.mem_cons, List.not_mem_nil, or_false] at h1
  have hd : sel ∉ dataOnlyNames := by
    intro hd
    have := (h3 hd).2
    subst this
    revert hv
    decide
  unfold dataOnlyNames at hd
  simp only [List.mem_cons, List.not_mem_nil, or_false, not_or] at hd
  obtain ⟨d1, d2, d3⟩ := hd
  rcases h1 with e | e | e | e | e
  · exact .inl e
  · exact .inr e
  · exact absurd e d1
  · exact absurd e d2
  · exact absurd e d3

/-- The choice for some arguments. -/
example : tuningChoice "Brute Force" (.str "leave-one-out") false = .ok ("bruteforce", "leaveoneout") ∧
    tuningChoice "iterative" (.str "cross validation") true = .error .InvalidArgumentValueCombination ∧
    tuningChoice "consecutive" (.float (1/5)) true = .ok ("consecutive", "proportion") := by
  refine ⟨?_, ?_, ?_⟩ <;> decide +kernel

end Nimble
