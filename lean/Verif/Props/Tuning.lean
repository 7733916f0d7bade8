import Verif.Model.Tuning
import Verif.Lemmas.Py
import Mathlib.Data.List.Nodup

/-!
# C38, C23, C22 – merging arguments, the best result, brute force
-/

namespace Nimble

/-! ## C38 – mergeArguments -/

section
variable {K V : Type} [DecidableEq K] [DecidableEq V]

private theorem disagrees_iff {ret : PyDict K V} {k : K} {v : V} :
    disagrees ret k v = true ↔ ∃ v', PyDict.get? ret k = some v' ∧ v' ≠ v := by
  unfold disagrees
  cases PyDict.get? ret k <;> simp

private theorem mergeLoop_spec (small : PyDict K V) (hn : (PyDict.keys small).Nodup) :
    ∀ (ret : PyDict K V), (PyDict.keys ret).Nodup →
    ((∃ r, mergeLoop ret small = .ok r) ↔
      ∀ k v v', PyDict.get? ret k = some v → PyDict.get? small k = some v' → v = v') ∧
    (∀ e, mergeLoop ret small = .error e → e = .InvalidArgumentValueCombination) ∧
    ∀ r, mergeLoop ret small = .ok r → (PyDict.keys r).Nodup ∧
      ∀ k, PyDict.get? r k = (PyDict.get? ret k).or (PyDict.get? small k) := by
  induction small with
  | nil => intro ret hr; simp [mergeLoop, hr]
  | cons p rest ih =>
    intro ret hr
    obtain ⟨k0, v0⟩ := p
    rw [PyDict.keys_cons, List.nodup_cons] at hn
    have hk0 : PyDict.get? rest k0 = none := by
      have := mt PyDict.mem_keys.2 hn.1
      simpa using this
    simp only [mergeLoop]
    by_cases hd : disagrees ret k0 v0 = true
    · rw [if_pos hd]
      obtain ⟨v', h1, h2⟩ := disagrees_iff.1 hd
      refine ⟨?_, by simp, by simp⟩
      constructor
      · rintro ⟨r, hr⟩; cases hr
      · intro hall; exact absurd (hall k0 v' v0 h1 (by simp [PyDict.get?])) h2
    · rw [if_neg hd]
      obtain ⟨i1, i2, i3⟩ := ih hn.2 (PyDict.set ret k0 v0) (PyDict.nodup_set hr _ _)
      have hagree : ∀ v', PyDict.get? ret k0 = some v' → v' = v0 := by
        intro v' hv'
        by_contra hne
        exact hd (disagrees_iff.2 ⟨v', hv', hne⟩)
      refine ⟨?_, i2, ?_⟩
      · rw [i1]
        constructor
        · intro hall k v v' h1 h2
          by_cases hk : k0 = k
          · subst hk
            simp only [PyDict.get?, if_true, Option.some.injEq] at h2
            rw [← h2]; exact hagree v h1
          · simp only [PyDict.get?, if_neg hk] at h2
            exact hall k v v' (by rw [PyDict.get?_set, if_neg hk]; exact h1) h2
        · intro hall k v v' h1 h2
          by_cases hk : k0 = k
          · subst hk; rw [hk0] at h2; cases h2
          · rw [PyDict.get?_set, if_neg hk] at h1
            exact hall k v v' h1 (by simp only [PyDict.get?, if_neg hk]; exact h2)
      · intro r hr'
        obtain ⟨h1, h2⟩ := i3 r hr'
        refine ⟨h1, fun k => ?_⟩
        rw [h2, PyDict.get?_set]
        by_cases hk : k0 = k
        · subst hk
          simp only [if_true, PyDict.get?]
          cases hg : PyDict.get? ret k0 with
          | none => simp
          | some v' => simp [hagree v' hg]
        · simp [PyDict.get?, hk]

private theorem or_comm_of_agree {a b : Option V} (h : ∀ v v', a = some v → b = some v' → v = v') :
    a.or b = b.or a := by
  cases a <;> cases b <;> simp_all

/-- C38. Merging is accepted exactly when the dictionaries agree on every common key, and then
returns exactly their union. -/
theorem C38_mergeArguments {a b : PyDict K V} (ha : (PyDict.keys a).Nodup) (hb : (PyDict.keys b).Nodup) :
    ((∃ r, mergeArguments a b = .ok r) ↔
      ∀ k v v', PyDict.get? a k = some v → PyDict.get? b k = some v' → v = v') ∧
    (∀ e, mergeArguments a b = .error e → e = .InvalidArgumentValueCombination) ∧
    ∀ r, mergeArguments a b = .ok r → (PyDict.keys r).Nodup ∧
      ∀ k, PyDict.get? r k = (PyDict.get? a k).or (PyDict.get? b k) := by
  unfold mergeArguments
  split
  · next h => obtain ⟨rfl, rfl⟩ := h; simp
  split
  · next h => subst h; simp [hb]
  split
  · next h => subst h; simp [ha]
  split
  · rw [PyDict.ofPairs_nodup hb]
    obtain ⟨h1, h2, h3⟩ := mergeLoop_spec a ha b hb
    have hsym : (∃ r, mergeLoop b a = .ok r) ↔
        ∀ k v v', PyDict.get? a k = some v → PyDict.get? b k = some v' → v = v' := by
      rw [h1]
      exact ⟨fun h k v v' x y => (h k v' v y x).symm, fun h k v v' x y => (h k v' v y x).symm⟩
    refine ⟨hsym, h2, fun r hr => ⟨(h3 r hr).1, fun k => ?_⟩⟩
    rw [(h3 r hr).2 k]
    exact or_comm_of_agree (fun v v' x y => h1.1 ⟨r, hr⟩ k v v' x y)
  · rw [PyDict.ofPairs_nodup ha]
    exact mergeLoop_spec b hb a ha

/-- C38. The returned dictionary is a new object and no existing dictionary is changed. -/
theorem C38_mergeArguments_fresh {heap heap' : List (PyDict K V)} {a k : Option Nat} {r : Nat}
    (h : mergeArgumentsH heap a k = .ok (heap', r)) :
    heap[r]? = none ∧ (∀ i, i < heap.length → heap'[i]? = heap[i]?) ∧
    ∃ d, heap'[r]? = some d ∧
      mergeArguments ((a.bind (heap[·]?)).getD []) ((k.bind (heap[·]?)).getD []) = .ok d := by
  unfold mergeArgumentsH at h
  cases hm : mergeArguments ((a.bind (heap[·]?)).getD []) ((k.bind (heap[·]?)).getD []) with
  | error e => rw [hm] at h; cases h
  | ok d =>
    rw [hm] at h
    simp only [bind, Except.bind, pure, Except.pure, Except.ok.injEq, Prod.mk.injEq] at h
    obtain ⟨rfl, rfl⟩ := h
    refine ⟨by simp, fun i hi => by simp [List.getElem?_append_left hi], d, by simp, rfl⟩

example : mergeArguments [("a", 1), ("b", 2)] [("b", 2), ("c", 3)] =
    .ok [("a", 1), ("b", 2), ("c", 3)] := by decide
example : mergeArguments [("a", 1)] [("a", 2), ("c", 3)] =
    .error .InvalidArgumentValueCombination := by decide

end

/-! ## C23 – the best result -/

section
variable {A P : Type}

/-- The recorded calls of a history, with their performances, in order. -/
def recorded (calls : List (A × Bool × Res P)) : List (P × A) :=
  calls.filterMap (fun c => match c with
    | (a, true, .ok p) => some (p, a)
    | _ => none)

/-- `isBest` compares like `<` or `>` on numbers: a strict weak order. -/
structure StrictOrder (isBest : P → P → Bool) : Prop where
  irrefl : ∀ p, isBest p p = false
  trans : ∀ p q r, isBest p q = true → isBest q r = true → isBest p r = true
  negTrans : ∀ p q r, isBest p q = false → isBest q r = false → isBest p r = false

/-- `b` is the best of the recorded results: nothing recorded is better, and it is the first such:
it is strictly better than everything recorded before it. -/
def IsBestOf (isBest : P → P → Bool) (recs : List (P × A)) : Option (P × A) → Prop
  | none => recs = []
  | some b => ∃ pre post, recs = pre ++ b :: post ∧ (∀ q ∈ pre, isBest b.1 q.1 = true) ∧
      ∀ q ∈ recs, isBest q.1 b.1 = false

private theorem isBestOf_snoc {isBest : P → P → Bool} (ho : StrictOrder isBest) {recs : List (P × A)}
    {best : Option (P × A)} (h : IsBestOf isBest recs best) (p : P) (a : A) :
    IsBestOf isBest (recs ++ [(p, a)]) (if VSt.improves isBest best p then some (p, a) else best) := by
  have asym : ∀ x y, isBest x y = true → isBest y x = false := by
    intro x y hxy
    cases hyx : isBest y x with
    | false => rfl
    | true => have := ho.trans _ _ _ hxy hyx; rw [ho.irrefl] at this; cases this
  cases best with
  | none =>
    have : recs = [] := h
    subst this
    exact ⟨[], [], rfl, by simp, by simp [ho.irrefl]⟩
  | some b =>
    obtain ⟨pre, post, he, h1, h2⟩ := h
    have himp : VSt.improves isBest (some b) p = isBest p b.1 := rfl
    by_cases hb : isBest p b.1 = true
    · rw [if_pos (himp.trans hb)]
      have hall : ∀ q ∈ recs, isBest p q.1 = true := by
        intro q hq
        cases hpq : isBest p q.1 with
        | true => rfl
        | false => have := ho.negTrans _ _ _ hpq (h2 q hq); rw [hb] at this; cases this
      refine ⟨recs, [], by simp, hall, ?_⟩
      intro q hq
      rw [List.mem_append, List.mem_singleton] at hq
      rcases hq with hq | rfl
      · exact asym _ _ (hall q hq)
      · exact ho.irrefl _
    · rw [if_neg (by rw [himp]; exact hb)]
      refine ⟨pre, post ++ [(p, a)], by rw [he]; simp, h1, ?_⟩
      intro q hq
      rw [List.mem_append, List.mem_singleton] at hq
      rcases hq with hq | rfl
      · exact h2 q hq
      · simpa using hb

/-- C23. After any history of `validate` calls the results and arguments list exactly the recorded
calls in order, and the best result is the optimum of the recorded performances with the arguments
of its first occurrence.  Performances must be comparable (no NaN). -/
theorem C23_best_result_partial {isBest : P → P → Bool} (ho : StrictOrder isBest)
    (calls : List (A × Bool × Res P)) :
    (VSt.runAll isBest calls).results = (recorded calls).map Prod.fst ∧
    (VSt.runAll isBest calls).arguments = (recorded calls).map Prod.snd ∧
    IsBestOf isBest (recorded calls) (VSt.runAll isBest calls).best := by
  induction calls using List.reverseRecOn with
  | nil => exact ⟨rfl, rfl, rfl⟩
  | append_singleton cs c ih =>
    obtain ⟨a, rec, out⟩ := c
    have hrun : VSt.runAll isBest (cs ++ [(a, rec, out)]) =
        ((VSt.runAll isBest cs).validate isBest a rec out).1 := by
      simp [VSt.runAll, List.foldl_append]
    rw [hrun]
    cases out with
    | error e =>
      have : recorded (cs ++ [(a, rec, .error e)]) = recorded cs := by
        simp [recorded, List.filterMap_append]
      rw [this]; exact ih
    | ok p =>
      cases rec with
      | false =>
        have : recorded (cs ++ [(a, false, .ok p)]) = recorded cs := by
          simp [recorded, List.filterMap_append]
        rw [this]; exact ih
      | true =>
        have : recorded (cs ++ [(a, true, .ok p)]) = recorded cs ++ [(p, a)] := by
          simp [recorded, List.filterMap_append]
        rw [this]
        obtain ⟨h1, h2, h3⟩ := ih
        refine ⟨?_, ?_, ?_⟩
        · simp [VSt.validate, h1]
        · simp [VSt.validate, h2]
        · exact isBestOf_snoc ho h3 p a

/-- C23. `<` and `>` on integers satisfy the hypothesis. -/
theorem strictOrder_lt : StrictOrder (fun a b : Int => decide (a < b)) where
  irrefl := by simp
  trans := by intro p q r; simp only [decide_eq_true_eq]; omega
  negTrans := by intro p q r; simp only [decide_eq_false_iff_not]; omega

theorem strictOrder_gt : StrictOrder (fun a b : Int => decide (a > b)) where
  irrefl := by simp
  trans := by intro p q r; simp only [decide_eq_true_eq]; omega
  negTrans := by intro p q r; simp only [decide_eq_false_iff_not]; omega

/-- Comparison of floats where NaN (`none`) compares false with everything. -/
def nanLt : Option Int → Option Int → Bool
  | some a, some b => decide (a < b)
  | _, _ => false

/-- C23 fails when the first recorded performance is NaN: it stays the best forever, whatever is
recorded later. -/
theorem C23_nan_violated (a : A) (later : List (A × Bool × Res (Option Int))) :
    (VSt.runAll nanLt ((a, true, .ok none) :: later)).best = some (none, a) := by
  induction later using List.reverseRecOn with
  | nil => rfl
  | append_singleton cs c ih =>
    obtain ⟨b, rec, out⟩ := c
    have hrun : VSt.runAll nanLt ((a, true, .ok none) :: (cs ++ [(b, rec, out)])) =
        ((VSt.runAll nanLt ((a, true, .ok none) :: cs)).validate nanLt b rec out).1 := by
      simp [VSt.runAll, List.foldl_append]
    rw [hrun]
    cases out with
    | error e => exact ih
    | ok p =>
      cases rec with
      | false => exact ih
      | true =>
        simp only [VSt.validate, ih, VSt.improves, if_true]
        cases p <;> simp [nanLt]

example : (VSt.runAll (fun a b : Int => decide (a < b))
    [("x", true, .ok 3), ("y", true, .ok 2), ("z", false, .ok 0), ("w", true, .ok 2)]).best = some (2, "y") := by
  decide

end

/-! ## C22 – brute force -/

section
variable {K V : Type} [DecidableEq K]

private theorem length_product (xss : List (List V)) :
    (product xss).length = (xss.map List.length).prod := by
  induction xss with
  | nil => rfl
  | cons xs rest ih => simp [product, List.length_flatMap, ih]

private theorem numCombinations_foldl (args : PyDict K (ArgVal V)) (n : Nat) :
    args.foldl countStep n =
      n * (args.map (fun p => p.2.values.length)).prod := by
  induction args generalizing n with
  | nil => simp
  | cons p rest ih =>
    obtain ⟨k, v⟩ := p
    cases v with
    | fixed v => simp [List.foldl_cons, ih, ArgVal.values, countStep]
    | tune vals => simp [List.foldl_cons, ih, ArgVal.values, countStep, Nat.mul_assoc]

private theorem length_mem_product {xss : List (List V)} {c : List V} (h : c ∈ product xss) :
    c.length = xss.length := by
  induction xss generalizing c with
  | nil => simp [product] at h; simp [h]
  | cons xs rest ih =>
    simp only [product, List.mem_flatMap, List.mem_map] at h
    obtain ⟨x, _, c', hc', rfl⟩ := h
    simp [ih hc']

private theorem zip_keys_nodup {args : PyDict K (ArgVal V)} (hn : (PyDict.keys args).Nodup) {c : List V}
    (hc : c.length = args.length) :
    PyDict.ofPairs (List.zip (PyDict.keys args) c) = List.zip (PyDict.keys args) c := by
  apply PyDict.ofPairs_nodup
  rw [List.map_fst_zip (by simp [PyDict.keys, hc])]
  exact hn

private theorem combinations_eq {args : PyDict K (ArgVal V)} (hn : (PyDict.keys args).Nodup) :
    combinations args = (product (args.map (fun p => p.2.values))).map
      (fun c => List.zip (PyDict.keys args) c) := by
  unfold combinations
  apply List.map_congr_left
  intro c hc
  exact zip_keys_nodup hn (by simpa using length_mem_product hc)

private theorem combinations_cons {k : K} {a : ArgVal V} {rest : PyDict K (ArgVal V)}
    (hn : (PyDict.keys ((k, a) :: rest)).Nodup) :
    combinations ((k, a) :: rest) =
      a.values.flatMap (fun x => (combinations rest).map (fun c => (k, x) :: c)) := by
  have hn' : (PyDict.keys rest).Nodup := by
    rw [PyDict.keys_cons, List.nodup_cons] at hn; exact hn.2
  rw [combinations_eq hn, combinations_eq hn']
  simp only [List.map_cons, product, List.map_flatMap, List.map_map, PyDict.keys_cons]
  rfl

/-- C22. The combinations are exactly the dictionaries with the same keys that give every key one
of its values (a fixed argument its value). -/
theorem C22_combinations_complete {args : PyDict K (ArgVal V)} (hn : (PyDict.keys args).Nodup)
    (c : PyDict K V) :
    c ∈ combinations args ↔ PyDict.keys c = PyDict.keys args ∧
      ∀ k a, PyDict.get? args k = some a → ∃ v ∈ a.values, PyDict.get? c k = some v := by
  induction args generalizing c with
  | nil =>
    simp only [combinations, product, List.map_cons, List.map_nil, List.mem_singleton, PyDict.keys_nil,
      List.zip_nil_left, PyDict.get?_nil]
    constructor
    · rintro rfl; exact ⟨rfl, by simp⟩
    · rintro ⟨h, _⟩
      have : c = [] := by unfold PyDict.keys at h; simpa using h
      rw [this]; rfl
  | cons p rest ih =>
    obtain ⟨k, a⟩ := p
    rw [combinations_cons hn]
    rw [PyDict.keys_cons, List.nodup_cons] at hn
    simp only [List.mem_flatMap, List.mem_map, PyDict.keys_cons]
    constructor
    · rintro ⟨x, hx, c', hc', rfl⟩
      obtain ⟨h1, h2⟩ := (ih hn.2 c').1 hc'
      refine ⟨by rw [PyDict.keys_cons, h1], ?_⟩
      intro k' a' hg
      by_cases hk : k = k'
      · subst hk
        simp only [PyDict.get?, if_true, Option.some.injEq] at hg
        subst hg
        exact ⟨x, hx, by simp [PyDict.get?]⟩
      · simp only [PyDict.get?, if_neg hk] at hg ⊢
        exact h2 k' a' hg
    · rintro ⟨hk, hv⟩
      cases c with
      | nil => simp at hk
      | cons q c' =>
        obtain ⟨k', x⟩ := q
        rw [PyDict.keys_cons] at hk
        simp only [List.cons.injEq] at hk
        obtain ⟨rfl, hk⟩ := hk
        obtain ⟨v, hv1, hv2⟩ := hv k' a (by simp [PyDict.get?])
        simp only [PyDict.get?, if_true, Option.some.injEq] at hv2
        subst hv2
        refine ⟨x, hv1, c', (ih hn.2 c').2 ⟨hk, ?_⟩, rfl⟩
        intro k2 a2 hg
        have hne : k' ≠ k2 := by
          rintro rfl
          exact hn.1 (PyDict.mem_keys.2 (by rw [hg]; rfl))
        have := hv k2 a2 (by simp only [PyDict.get?, if_neg hne]; exact hg)
        simpa only [PyDict.get?, if_neg hne] using this

/-- C22. No combination is listed twice (when no Tune lists a value twice), and their number is the
product of the numbers of values. -/
theorem C22_combinations_once {args : PyDict K (ArgVal V)} (hn : (PyDict.keys args).Nodup) :
    (combinations args).length = (args.map (fun p => p.2.values.length)).prod ∧
    ((∀ p ∈ args, p.2.values.Nodup) → (combinations args).Nodup) := by
  constructor
  · simp only [combinations, List.length_map, length_product, List.map_map]
    rfl
  · intro hv
    induction args with
    | nil => simp [combinations, product]
    | cons p rest ih =>
      obtain ⟨k, a⟩ := p
      rw [combinations_cons hn]
      rw [PyDict.keys_cons, List.nodup_cons] at hn
      have hr := ih hn.2 (fun p hp => hv p (List.mem_cons_of_mem _ hp))
      rw [List.nodup_flatMap]
      refine ⟨fun x _ => hr.map (by intro a b h; simpa using h), ?_⟩
      apply List.Pairwise.imp _ (hv _ List.mem_cons_self)
      intro x y hxy
      simp only [Function.onFun, List.disjoint_iff_ne, List.mem_map]
      rintro c ⟨c1, _, rfl⟩ d ⟨d1, _, rfl⟩ he
      simp only [List.cons.injEq, Prod.mk.injEq] at he
      exact hxy he.1.2

private theorem numCombinations_eq {args : PyDict K (ArgVal V)} :
    numCombinations args = (combinations args).length := by
  unfold numCombinations
  rw [numCombinations_foldl]
  simp only [combinations, List.length_map, length_product, List.map_map, Nat.one_mul]
  rfl

private theorem bruteRun_from (args : PyDict K (ArgVal V)) (n : Nat) (t : Nat) : ∀ i,
    i + t = (combinations args).length →
    bruteRun args i (t + 1 + n) =
      ((combinations args).drop i).map .ok ++ [.error .StopIteration] ++ bruteRun args 0 n := by
  induction t with
  | zero =>
    intro i hi
    have hb : bruteNext args i = (0, .error .StopIteration) := by
      unfold bruteNext; rw [if_pos (by rw [numCombinations_eq]; omega)]
    rw [show 0 + 1 + n = n + 1 by omega]
    simp only [bruteRun, hb, List.drop_of_length_le (show (combinations args).length ≤ i by omega)]
    rfl
  | succ t ih =>
    intro i hi
    have hlt : i < (combinations args).length := by omega
    have hb : bruteNext args i = (i + 1, .ok (combinations args)[i]) := by
      unfold bruteNext
      rw [if_neg (by rw [numCombinations_eq]; omega), List.getElem?_eq_getElem hlt]
    rw [show t + 1 + 1 + n = (t + 1 + n) + 1 by omega]
    simp only [bruteRun, hb]
    rw [ih (i + 1) (by omega), List.drop_eq_getElem_cons hlt]
    rfl

/-- C22. Iterating a brute force search yields every combination exactly once, in order, and then
stops; iterating again starts over. -/
theorem C22_brute_force_run (args : PyDict K (ArgVal V)) (n : Nat) :
    bruteRun args 0 ((combinations args).length + 1 + n) =
      (combinations args).map .ok ++ [.error .StopIteration] ++ bruteRun args 0 n := by
  rw [bruteRun_from args n _ 0 (by omega)]; rfl

example : combinations [("a", .tune [1, 2]), ("b", .fixed 5), ("c", .tune [7, 8])] =
    [[("a", 1), ("b", 5), ("c", 7)], [("a", 1), ("b", 5), ("c", 8)],
     [("a", 2), ("b", 5), ("c", 7)], [("a", 2), ("b", 5), ("c", 8)]] := by decide

end

end Nimble
