import Verif.Model.CustomSig
import Mathlib.Data.List.Nodup

/-!
# C80: a custom learner class that passes the validation can be used with the arguments that pass it
-/

namespace Nimble.Custom

theorem startsWith_iff (es : List String) : ∀ ns : List String, startsWith ns es = .ok () ↔ es <+: ns := by
  induction es with
  | nil => intro ns; cases ns <;> simp [startsWith]
  | cons e es ih =>
    intro ns
    cases ns with
    | nil => simp [startsWith]
    | cons n ns =>
      unfold startsWith
      by_cases h : n = e
      · subst h
        rw [if_neg (by simp), ih, List.cons_prefix_cons]
        simp
      · rw [if_pos h]
        constructor
        · intro h'; cases h'
        · intro h'
          rw [List.cons_prefix_cons] at h'
          exact absurd h'.1.symm h

theorem res_bind_ok {α β : Type} {x : Res α} {f : α → Res β} {b : β} :
    (x.bind f = .ok b) ↔ ∃ a, x = .ok a ∧ f a = .ok b := by
  cases x with
  | error e => simp [Except.bind]
  | ok a => simp [Except.bind]

theorem unit_bind_ok {β : Type} {x : Res Unit} {y : Res β} {b : β} :
    (x.bind (fun _ => y) = .ok b) ↔ x = .ok () ∧ y = .ok b := by
  cases x with
  | error e => simp [Except.bind]
  | ok a => simp [Except.bind]

theorem call_ok (s : Sig) (p : Nat) (kws : List String) : s.call p kws = .ok () ↔
    p ≤ s.pos.length ∧ kws.Nodup ∧
      (∀ k ∈ kws, k ∉ s.names.take p ∧ (k ∈ s.names.drop p ∨ k ∈ s.kwOnly.map Param.name ∨ s.varKw = true)) ∧
      (∀ q ∈ s.pos.drop p ++ s.kwOnly, q.dflt = none → q.name ∈ kws) := by
  unfold Sig.call
  split
  · exact ⟨fun _ => by assumption, fun _ => rfl⟩
  · exact ⟨fun h => (by cases h), fun h => absurd h (by assumption)⟩

theorem call_error {s : Sig} {p : Nat} {kws : List String} (h : s.call p kws ≠ .ok ()) :
    s.call p kws = .error .TypeError := by
  unfold Sig.call at *
  split
  · rename_i hc; rw [if_pos hc] at h; exact absurd rfl h
  · rfl

theorem initCheck_iff (c : Cls) : initCheck c = .ok () ↔ c.init.names = ["self"] := by
  unfold initCheck
  have hl : c.init.names.length = c.init.pos.length := by simp [Sig.names]
  by_cases h : 1 < c.init.pos.length
  · rw [if_pos h]
    constructor
    · intro h'; cases h'
    · intro h'
      rw [h'] at hl
      simp at hl
      omega
  · rw [if_neg h]
    cases hn : c.init.names with
    | nil => simp
    | cons n ns =>
      rw [hn] at hl
      have : ns = [] := by
        cases ns with
        | nil => rfl
        | cons a b => simp at hl; omega
      subst this
      dsimp only
      by_cases hs : n = "self"
      · subst hs; simp
      · rw [if_pos hs]; simp [hs]

/-- C80. Which classes pass the validation, and what it changes: `incrementalTrain` takes the place of a missing
`train`, nothing else. -/
theorem C80_validate (c c' : Cls) : validate c = .ok c' ↔
    c.learnerType ∈ ["regression", "classification", "cluster", "transformation", "undefined"] ∧
    ["self", "trainX", "trainY"] <+: c.train.names ∧ ["self", "trainX", "trainY"] <+: c.inc.names ∧
    ["self", "testX"] <+: c.apply.names ∧ (c.hasTrain = true ∨ c.hasInc = true) ∧
    (∀ s, c.scores = some s → s.pos = c.apply.pos ∧ s.varKw = c.apply.varKw) ∧
    c.init.names = ["self"] ∧ (∀ q ∈ c.init.kwOnly, q.dflt ≠ none) ∧ c.abstractLeft = false ∧
    c' = if c.hasTrain then c else { c with train := c.inc } := by
  unfold validate
  by_cases hlt : c.learnerType ∉ learnerTypes
  · rw [if_pos hlt]
    constructor
    · intro h; cases h
    · intro h; exact absurd h.1 hlt
  rw [if_neg hlt]
  rw [not_not] at hlt
  have hlt' : c.learnerType ∈ ["regression", "classification", "cluster", "transformation", "undefined"] := hlt
  show (Except.bind _ _ = _) ↔ _
  rw [unit_bind_ok, startsWith_iff]
  show (_ ∧ (Except.bind _ _ = _)) ↔ _
  rw [unit_bind_ok, startsWith_iff]
  show (_ ∧ _ ∧ (Except.bind _ _ = _)) ↔ _
  rw [unit_bind_ok, startsWith_iff]
  show (_ ∧ _ ∧ _ ∧ (Except.bind _ _ = _)) ↔ _
  rw [res_bind_ok]
  have key : ∀ d : Cls, ((do
      scoresCheck d
      initCheck d
      instantiate d
      return d : Res Cls) = .ok c') ↔
      ((∀ s, d.scores = some s → s.pos = d.apply.pos ∧ s.varKw = d.apply.varKw) ∧ d.init.names = ["self"] ∧
      (∀ q ∈ d.init.kwOnly, q.dflt ≠ none) ∧ d.abstractLeft = false ∧ c' = d) := by
    intro d
    show (Except.bind _ _ = _) ↔ _
    rw [unit_bind_ok]
    show (_ ∧ (Except.bind _ _ = _)) ↔ _
    rw [unit_bind_ok]
    show (_ ∧ _ ∧ (Except.bind _ _ = _)) ↔ _
    rw [unit_bind_ok, initCheck_iff]
    have h1 : scoresCheck d = .ok () ↔ ∀ s, d.scores = some s → s.pos = d.apply.pos ∧ s.varKw = d.apply.varKw := by
      unfold scoresCheck
      cases hs : d.scores with
      | none => simp
      | some s =>
        dsimp only
        by_cases he : s.inspect = d.apply.inspect
        · rw [if_neg (by simpa using he)]
          refine ⟨fun _ s' hs' => ?_, fun _ => rfl⟩
          injection hs' with hs'
          subst hs'
          unfold Sig.inspect at he
          injection he with a b
          exact ⟨a, b⟩
        · rw [if_pos he]
          refine ⟨fun h => (by cases h), fun h => ?_⟩
          obtain ⟨a, b⟩ := h s rfl
          exact absurd (by unfold Sig.inspect; rw [a, b]) he
    rw [h1]
    constructor
    · rintro ⟨a, b, e, f⟩
      injection f with f
      subst f
      unfold instantiate at e
      cases hab : d.abstractLeft with
      | true => rw [hab] at e; cases e
      | false =>
        rw [hab] at e
        replace e := (call_ok _ _ _).1 e
        refine ⟨a, b, ?_, rfl, rfl⟩
        intro q hq hd
        have := e.2.2.2 q (List.mem_append_right _ hq) hd
        cases this
    · rintro ⟨a, b, e, f, rfl⟩
      refine ⟨a, b, ?_, rfl⟩
      unfold instantiate
      rw [f]
      refine (call_ok _ _ _).2 ?_
      have hl : c'.init.pos.length = 1 := by
        have : c'.init.names.length = c'.init.pos.length := by simp [Sig.names]
        rw [b] at this
        simpa using this.symm
      refine ⟨by omega, List.nodup_nil, by simp, ?_⟩
      intro q hq hd
      rw [List.drop_eq_nil_of_le (by omega), List.nil_append] at hq
      exact absurd hd (e q hq)
  constructor
  · rintro ⟨a, b, e, d, hd, hk⟩
    replace hk := (key d).1 hk
    obtain ⟨k1, k2, k3, k4, rfl⟩ := hk
    unfold fillTrain at hd
    cases ht : c.hasTrain with
    | true =>
      rw [ht] at hd
      injection hd with hd
      subst hd
      exact ⟨hlt', a, b, e, .inl rfl, k1, k2, k3, k4, by simp⟩
    | false =>
      rw [ht] at hd
      cases hi : c.hasInc with
      | false => rw [hi] at hd; cases hd
      | true =>
        rw [hi] at hd
        injection hd with hd
        subst hd
        exact ⟨hlt', a, b, e, .inr rfl, k1, k2, k3, k4, by simp⟩
  · rintro ⟨-, a, b, e, f, k1, k2, k3, k4, rfl⟩
    refine ⟨a, b, e, _, ?_, (key _).2 ⟨?_, ?_, ?_, ?_, rfl⟩⟩
    · unfold fillTrain
      cases ht : c.hasTrain with
      | true => rfl
      | false =>
        have : c.hasInc = true := by
          rcases f with f | f
          · rw [ht] at f; cases f
          · exact f
        rw [this]; rfl
    all_goals (cases ht : c.hasTrain <;> assumption)

/-! ## Arguments -/

theorem missingLoop_ok {dflts : List String} : ∀ (ps check rest : List String), ps.Nodup → check.Nodup →
    (missingLoop dflts ps check = .ok rest ↔
      (∀ p ∈ ps, p ∈ check ∨ p ∈ dflts) ∧ rest = check.filter (fun a => a ∉ ps)) := by
  intro ps
  induction ps with
  | nil =>
    intro check rest _ _
    simp [missingLoop, eq_comm]
  | cons p ps ih =>
    intro check rest hp hc
    obtain ⟨hp1, hp2⟩ := List.nodup_cons.1 hp
    unfold missingLoop
    by_cases h1 : p ∈ check
    · rw [if_pos h1, ih _ _ hp2 (hc.erase p), hc.erase_eq_filter]
      constructor
      · rintro ⟨a, b⟩
        refine ⟨?_, ?_⟩
        · intro q hq
          rcases List.mem_cons.1 hq with rfl | hq
          · exact .inl h1
          · rcases a q hq with h | h
            · exact .inl (List.mem_filter.1 h).1
            · exact .inr h
        · rw [b, List.filter_filter]
          refine List.filter_congr ?_
          intro x _
          by_cases hx : x = p <;> simp [hx]
      · rintro ⟨a, b⟩
        refine ⟨?_, ?_⟩
        · intro q hq
          rcases a q (List.mem_cons_of_mem _ hq) with h | h
          · refine .inl (List.mem_filter.2 ⟨h, ?_⟩)
            have : q ≠ p := by rintro rfl; exact hp1 hq
            simpa using this
          · exact .inr h
        · rw [b, List.filter_filter]
          refine List.filter_congr ?_
          intro x _
          by_cases hx : x = p <;> simp [hx]
    · rw [if_neg h1]
      by_cases h2 : p ∈ dflts
      · rw [if_neg (by simpa using h2), ih _ _ hp2 hc]
        constructor
        · rintro ⟨a, b⟩
          refine ⟨?_, ?_⟩
          · intro q hq
            rcases List.mem_cons.1 hq with rfl | hq
            · exact .inr h2
            · exact a q hq
          · rw [b]
            refine List.filter_congr ?_
            intro x hx
            have : x ≠ p := by rintro rfl; exact h1 hx
            simp [this]
        · rintro ⟨a, b⟩
          refine ⟨fun q hq => a q (List.mem_cons_of_mem _ hq), ?_⟩
          rw [b]
          refine List.filter_congr ?_
          intro x hx
          have : x ≠ p := by rintro rfl; exact h1 hx
          simp [this]
      · rw [if_pos h2]
        constructor
        · intro h; cases h
        · rintro ⟨a, -⟩
          rcases a p (List.mem_cons_self ..) with h | h
          · exact absurd h h1
          · exact absurd h h2

/-- C80. Arguments pass for one set of distinct parameters exactly when every parameter without a default is given
and nothing else than parameters is given. -/
theorem C80_arguments {ps dflts args : List String} (hp : ps.Nodup) (ha : args.Nodup) :
    (validateArgs ps dflts args = .ok () ↔
      (∀ p ∈ ps, p ∈ args ∨ p ∈ dflts) ∧ ∀ a ∈ args, a ∈ ps) ∧
    (validateArgs ps dflts args ≠ .ok () → validateArgs ps dflts args = .error .InvalidArgumentValue) := by
  have hloop : ∀ (l check : List String) (e : Err), missingLoop dflts l check = .error e → e = .InvalidArgumentValue := by
    intro l
    induction l with
    | nil => intro check e h; cases h
    | cons p l ih =>
      intro check e h
      unfold missingLoop at h
      split at h
      · exact ih _ _ h
      · split at h
        · injection h with h; exact h.symm
        · exact ih _ _ h
  unfold validateArgs
  cases hm : missingLoop dflts ps args with
  | error e =>
    have he := hloop _ _ _ hm
    subst he
    refine ⟨⟨fun h => (by cases h), ?_⟩, fun _ => rfl⟩
    rintro ⟨a, -⟩
    have := (missingLoop_ok ps args (args.filter (fun a => a ∉ ps)) hp ha).2 ⟨a, rfl⟩
    rw [hm] at this
    cases this
  | ok rest =>
    obtain ⟨h1, h2⟩ := (missingLoop_ok ps args rest hp ha).1 hm
    simp only [bind, Except.bind]
    have hr : rest = [] ↔ ∀ a ∈ args, a ∈ ps := by
      rw [h2, List.filter_eq_nil_iff]
      simp
    by_cases h : rest = []
    · rw [if_pos h]
      exact ⟨⟨fun _ => ⟨h1, hr.1 h⟩, fun _ => rfl⟩, fun h => absurd rfl h⟩
    · rw [if_neg h]
      exact ⟨⟨fun h => (by cases h), fun h' => absurd (hr.2 h'.2) h⟩, fun _ => rfl⟩

/-- The parameters of `train` and of `apply` that the user gives. -/
def Cls.trainNames (c : Cls) : List String := c.train.names.drop 3
def Cls.applyNames (c : Cls) : List String := c.apply.names.drop 2

/-- The class is an ordinary one: the parameters of a method have different names (Python requires it), those of
`train` and `apply` are different and none of them is called like the data, `train` has no parameters after `*` and
no `**kwargs`, and those of `apply` after `*` have defaults. -/
structure Ordinary (c : Cls) : Prop where
  trainNodup : c.train.names.Nodup
  applyNodup : c.apply.names.Nodup
  disj : ∀ n ∈ c.trainNames, n ∉ c.applyNames
  trainNames : ∀ n ∈ c.trainNames, n ∉ ["trainX", "trainY", "testX"]
  applyNames : ∀ n ∈ c.applyNames, n ∉ ["trainX", "trainY", "testX"]
  kwTrain : c.train.kwOnly = [] ∧ c.train.varKw = false
  kwApply : ∀ q ∈ c.apply.kwOnly, q.dflt ≠ none

theorem names_split3 {s : Sig} (h : ["self", "trainX", "trainY"] <+: s.names) :
    s.names = "self" :: "trainX" :: "trainY" :: s.names.drop 3 := by
  obtain ⟨t, ht⟩ := h
  rw [← ht]; rfl

theorem names_split2 {s : Sig} (h : ["self", "testX"] <+: s.names) :
    s.names = "self" :: "testX" :: s.names.drop 2 := by
  obtain ⟨t, ht⟩ := h
  rw [← ht]; rfl

theorem params_eq {c : Cls} (ho : Ordinary c) (h1 : ["self", "trainX", "trainY"] <+: c.train.names)
    (h2 : ["self", "testX"] <+: c.apply.names) : params c = c.trainNames ++ c.applyNames := by
  unfold params
  have e1 : c.train.names.drop 2 = "trainY" :: c.trainNames := by
    rw [names_split3 h1]; rfl
  have e2 : c.apply.names.drop 1 = "testX" :: c.applyNames := by
    rw [names_split2 h2]; rfl
  rw [e1, e2, List.filter_append, List.filter_cons_of_neg (by decide), List.filter_cons_of_neg (by decide)]
  congr 1
  · exact List.filter_eq_self.2 (fun n hn => by simpa [ignored] using ho.trainNames n hn)
  · exact List.filter_eq_self.2 (fun n hn => by simpa [ignored] using ho.applyNames n hn)

theorem mem_defaults (c : Cls) (n : String) :
    n ∈ defaults c ↔ ∃ q, (q ∈ c.train.pos ∨ q ∈ c.apply.pos) ∧ q.dflt ≠ none ∧ q.name = n := by
  unfold defaults
  rw [List.mem_map]
  constructor
  · rintro ⟨q, hq, rfl⟩
    obtain ⟨a, b⟩ := List.mem_filter.1 hq
    refine ⟨q, List.mem_append.1 a, ?_, rfl⟩
    intro h; rw [h] at b; cases b
  · rintro ⟨q, a, b, rfl⟩
    refine ⟨q, List.mem_filter.2 ⟨List.mem_append.2 a, ?_⟩, rfl⟩
    exact Option.isSome_iff_ne_none.2 b

theorem param_unique {s : Sig} (h : s.names.Nodup) {q q' : Param} (hq : q ∈ s.pos) (hq' : q' ∈ s.pos)
    (hn : q.name = q'.name) : q = q' := List.inj_on_of_nodup_map h hq hq' hn

theorem train_default {c : Cls} (ho : Ordinary c) (h1 : ["self", "trainX", "trainY"] <+: c.train.names)
    (h2 : ["self", "testX"] <+: c.apply.names) {q : Param} (hq : q ∈ c.train.pos.drop 3) :
    q.name ∈ defaults c ↔ q.dflt ≠ none := by
  have hqT : q.name ∈ c.trainNames := by
    unfold Cls.trainNames Sig.names
    rw [← List.map_drop]
    exact List.mem_map.2 ⟨q, hq, rfl⟩
  rw [mem_defaults]
  constructor
  · rintro ⟨q', hq', hd, hn⟩
    rcases hq' with hq' | hq'
    · rw [← param_unique ho.trainNodup hq' (List.mem_of_mem_drop hq) hn]
      exact hd
    · exfalso
      have : q'.name ∈ c.apply.names := List.mem_map.2 ⟨q', hq', rfl⟩
      rw [hn, names_split2 h2] at this
      rcases List.mem_cons.1 this with h | h
      · have hnd := ho.trainNodup
        rw [names_split3 h1] at hnd
        have hs := (List.nodup_cons.1 hnd).1
        rw [← h] at hs
        exact hs (List.mem_cons_of_mem _ (List.mem_cons_of_mem _ hqT))
      · rcases List.mem_cons.1 h with h | h
        · exact ho.trainNames _ hqT (by rw [h]; decide)
        · exact ho.disj _ hqT h
  · intro hd
    exact ⟨q, .inl (List.mem_of_mem_drop hq), hd, rfl⟩

theorem apply_default {c : Cls} (ho : Ordinary c) (h1 : ["self", "trainX", "trainY"] <+: c.train.names)
    (h2 : ["self", "testX"] <+: c.apply.names) {q : Param} (hq : q ∈ c.apply.pos.drop 2) :
    q.name ∈ defaults c ↔ q.dflt ≠ none := by
  have hqA : q.name ∈ c.applyNames := by
    unfold Cls.applyNames Sig.names
    rw [← List.map_drop]
    exact List.mem_map.2 ⟨q, hq, rfl⟩
  rw [mem_defaults]
  constructor
  · rintro ⟨q', hq', hd, hn⟩
    rcases hq' with hq' | hq'
    · exfalso
      have : q'.name ∈ c.train.names := List.mem_map.2 ⟨q', hq', rfl⟩
      rw [hn, names_split3 h1] at this
      rcases List.mem_cons.1 this with h | h
      · have hnd := ho.applyNodup
        rw [names_split2 h2] at hnd
        have hs := (List.nodup_cons.1 hnd).1
        rw [← h] at hs
        exact hs (List.mem_cons_of_mem _ hqA)
      · rcases List.mem_cons.1 h with h | h
        · exact ho.applyNames _ hqA (by rw [h]; decide)
        · rcases List.mem_cons.1 h with h | h
          · exact ho.applyNames _ hqA (by rw [h]; decide)
          · exact ho.disj _ h hqA
    · rw [← param_unique ho.applyNodup hq' (List.mem_of_mem_drop hq) hn]
      exact hd
  · intro hd
    exact ⟨q, .inr (List.mem_of_mem_drop hq), hd, rfl⟩

theorem mem_dropNames {s : Sig} {k : Nat} {n : String} : n ∈ s.names.drop k ↔ ∃ q ∈ s.pos.drop k, q.name = n := by
  unfold Sig.names
  rw [← List.map_drop, List.mem_map]

theorem valid_methods {c0 c : Cls} (hv : validate c0 = .ok c) :
    ["self", "trainX", "trainY"] <+: c.train.names ∧ ["self", "testX"] <+: c.apply.names := by
  obtain ⟨-, a, b, h, -, -, -, -, -, rfl⟩ := (C80_validate c0 c).1 hv
  cases c0.hasTrain
  · exact ⟨b, h⟩
  · exact ⟨a, h⟩

/-- C80. For an ordinary class that passed the validation: which arguments are accepted by `train`. -/
theorem C80_accepted {c0 c : Cls} (hv : validate c0 = .ok c) (ho : Ordinary c)
    {args : List String} (ha : args.Nodup) :
    validateArgs (params c) (defaults c) args = .ok () ↔
      (∀ q ∈ c.train.pos.drop 3 ++ c.apply.pos.drop 2, q.dflt = none → q.name ∈ args) ∧
      ∀ a ∈ args, a ∈ c.trainNames ∨ a ∈ c.applyNames := by
  obtain ⟨h1, h2⟩ := valid_methods hv
  have hnd : (c.trainNames ++ c.applyNames).Nodup :=
    List.nodup_append'.2 ⟨ho.trainNodup.sublist (List.drop_sublist ..), ho.applyNodup.sublist (List.drop_sublist ..),
      fun n a b => ho.disj n a b⟩
  rw [params_eq ho h1 h2, (C80_arguments hnd ha).1]
  constructor
  · rintro ⟨a, b⟩
    refine ⟨?_, fun x hx => List.mem_append.1 (b x hx)⟩
    intro q hq hd
    rcases List.mem_append.1 hq with hq | hq
    · rcases a q.name (List.mem_append_left _ (mem_dropNames.2 ⟨q, hq, rfl⟩)) with h | h
      · exact h
      · exact absurd hd ((train_default ho h1 h2 hq).1 h)
    · rcases a q.name (List.mem_append_right _ (mem_dropNames.2 ⟨q, hq, rfl⟩)) with h | h
      · exact h
      · exact absurd hd ((apply_default ho h1 h2 hq).1 h)
  · rintro ⟨a, b⟩
    refine ⟨?_, fun x hx => List.mem_append.2 (b x hx)⟩
    intro n hn
    rcases List.mem_append.1 hn with hn | hn
    · obtain ⟨q, hq, rfl⟩ := mem_dropNames.1 hn
      by_cases hd : q.dflt = none
      · exact .inl (a q (List.mem_append_left _ hq) hd)
      · exact .inr ((train_default ho h1 h2 hq).2 hd)
    · obtain ⟨q, hq, rfl⟩ := mem_dropNames.1 hn
      by_cases hd : q.dflt = none
      · exact .inl (a q (List.mem_append_right _ hq) hd)
      · exact .inr ((apply_default ho h1 h2 hq).2 hd)

/-- C80. With accepted arguments, `train` can be called exactly when none of them is a parameter of `apply` only;
otherwise the call fails with TypeError. Missing: the full claim is that accepted arguments always work. -/
theorem C80_train_partial {c0 c : Cls} (hv : validate c0 = .ok c) (ho : Ordinary c)
    {args : List String} (ha : args.Nodup)
    (hacc : validateArgs (params c) (defaults c) args = .ok ()) :
    (trainCall c args = .ok () ↔ ∀ a ∈ args, a ∉ c.applyNames) ∧
    (trainCall c args ≠ .ok () → trainCall c args = .error .TypeError) := by
  obtain ⟨r1, r2⟩ := (C80_accepted hv ho ha).1 hacc
  obtain ⟨h1, h2⟩ := valid_methods hv
  have e : trainCall c args = c.train.call 3 args := by
    unfold trainCall
    simp only [bind, Except.bind, hacc]
  rw [e]
  refine ⟨?_, fun h => call_error h⟩
  rw [call_ok]
  constructor
  · rintro ⟨-, -, a, -⟩ x hx hxa
    obtain ⟨-, b⟩ := a x hx
    rw [ho.kwTrain.1, ho.kwTrain.2] at b
    rcases b with b | b | b
    · exact ho.disj x b hxa
    · cases b
    · cases b
  · intro h
    refine ⟨?_, ha, ?_, ?_⟩
    · have : c.train.names.length = c.train.pos.length := by simp [Sig.names]
      rw [names_split3 h1] at this
      simp only [List.length_cons] at this
      omega
    · intro k hk
      have hkT : k ∈ c.trainNames := by
        rcases r2 k hk with h' | h'
        · exact h'
        · exact absurd h' (h k hk)
      refine ⟨?_, .inl hkT⟩
      intro hk3
      have hnd := ho.trainNodup
      rw [← List.take_append_drop 3 c.train.names] at hnd
      exact (List.nodup_append'.1 hnd).2.2 hk3 hkT
    · intro q hq hd
      rw [ho.kwTrain.1, List.append_nil] at hq
      exact r1 q (List.mem_append_left _ hq) hd

/-- C80. A learner trained with accepted arguments can be applied with any new arguments that are parameters of
`apply`; other new arguments are refused. -/
theorem C80_apply {c0 c : Cls} (hv : validate c0 = .ok c) (ho : Ordinary c)
    {args new : List String} (ha : args.Nodup) (hnew : new.Nodup)
    (hacc : validateArgs (params c) (defaults c) args = .ok ()) :
    ((∀ a ∈ new, a ∈ c.applyNames) → applyCall c new args = .ok ()) ∧
    (¬ (∀ a ∈ new, a ∈ c.applyNames) → applyCall c new args = .error .InvalidArgumentValue) := by
  obtain ⟨r1, r2⟩ := (C80_accepted hv ho ha).1 hacc
  obtain ⟨h1, h2⟩ := valid_methods hv
  constructor
  · intro hn
    unfold applyCall methodArgs
    rw [if_pos (show ∀ a ∈ new, a ∈ c.apply.names.drop 2 from hn)]
    simp only [bind, Except.bind]
    rw [call_ok]
    refine ⟨?_, ?_, ?_, ?_⟩
    rotate_left
    · refine List.nodup_append'.2 ⟨hnew, (ho.applyNodup.sublist (List.drop_sublist ..)).filter _, ?_⟩
      intro k hk hk'
      have := (List.mem_filter.1 hk').2
      simp [hk] at this
    rotate_right
    · have : c.apply.names.length = c.apply.pos.length := by simp [Sig.names]
      rw [names_split2 h2] at this
      simp only [List.length_cons] at this
      omega
    · intro k hk
      have hkA : k ∈ c.applyNames := by
        rcases List.mem_append.1 hk with h | h
        · exact hn k h
        · exact (List.mem_filter.1 h).1
      refine ⟨?_, .inl hkA⟩
      intro hk2
      have hnd := ho.applyNodup
      rw [← List.take_append_drop 2 c.apply.names] at hnd
      exact (List.nodup_append'.1 hnd).2.2 hk2 hkA
    · intro q hq hd
      rcases List.mem_append.1 hq with hq | hq
      · have hqa := r1 q (List.mem_append_right _ hq) hd
        by_cases hqn : q.name ∈ new
        · exact List.mem_append_left _ hqn
        · refine List.mem_append_right _ (List.mem_filter.2 ⟨mem_dropNames.2 ⟨q, hq, rfl⟩, ?_⟩)
          simp [hqn, hqa]
      · exact absurd hd (ho.kwApply q hq)
  · intro hn
    unfold applyCall methodArgs
    rw [if_neg (show ¬ ∀ a ∈ new, a ∈ c.apply.names.drop 2 from hn)]
    rfl

/-- C80 violated: a parameter of `apply` without a default must be given when training, and is then passed to
`train`: such a learner cannot be trained at all. -/
theorem C80_apply_required_violated {c0 c : Cls} (hv : validate c0 = .ok c) (ho : Ordinary c)
    {q : Param} (hq : q ∈ c.apply.pos.drop 2)
    (hd : q.dflt = none) {args : List String} (ha : args.Nodup) : trainCall c args ≠ .ok () := by
  intro h
  have hacc : validateArgs (params c) (defaults c) args = .ok () := by
    unfold trainCall at h
    simp only [bind, Except.bind] at h
    cases hx : validateArgs (params c) (defaults c) args with
    | error e => rw [hx] at h; cases h
    | ok u => rfl
  obtain ⟨r1, -⟩ := (C80_accepted hv ho ha).1 hacc
  exact ((C80_train_partial hv ho ha hacc).1.1 h) q.name (r1 q (List.mem_append_right _ hq) hd)
    (mem_dropNames.2 ⟨q, hq, rfl⟩)

theorem missingLoop_shared {dflts : List String} {n : String} (hn : n ∉ dflts) :
    ∀ (ps check : List String), check.Nodup → n ∈ ps → n ∉ check → ∃ e, missingLoop dflts ps check = .error e := by
  intro ps
  induction ps with
  | nil => intro check _ h; cases h
  | cons p ps ih =>
    intro check hc hp hk
    unfold missingLoop
    by_cases h1 : p ∈ check
    · rw [if_pos h1]
      have hpn : n ≠ p := by rintro rfl; exact hk h1
      refine ih _ (hc.erase p) ?_ (fun h => hk (List.mem_of_mem_erase h))
      rcases List.mem_cons.1 hp with h | h
      · exact absurd h hpn
      · exact h
    · rw [if_neg h1]
      by_cases h2 : p ∈ dflts
      · rw [if_neg (by simpa using h2)]
        refine ih _ hc ?_ hk
        rcases List.mem_cons.1 hp with rfl | h
        · exact absurd h2 hn
        · exact h
      · rw [if_pos h2]; exact ⟨_, rfl⟩

theorem missingLoop_twice {dflts : List String} {n : String} (hn : n ∉ dflts) :
    ∀ (a b check : List String), check.Nodup → n ∈ a → n ∈ b → ∃ e, missingLoop dflts (a ++ b) check = .error e := by
  intro a
  induction a with
  | nil => intro b check _ h; cases h
  | cons p a ih =>
    intro b check hc ha hb
    by_cases hk : n ∈ check
    · show ∃ e, missingLoop dflts (p :: (a ++ b)) check = .error e
      unfold missingLoop
      by_cases h1 : p ∈ check
      · rw [if_pos h1]
        by_cases hpn : n = p
        · subst hpn
          exact missingLoop_shared hn _ _ (hc.erase n) (List.mem_append_right _ hb)
            (fun h => absurd rfl ((hc.mem_erase_iff).1 h).1)
        · refine ih b _ (hc.erase p) ?_ hb
          rcases List.mem_cons.1 ha with h | h
          · exact absurd h hpn
          · exact h
      · rw [if_neg h1]
        by_cases h2 : p ∈ dflts
        · rw [if_neg (by simpa using h2)]
          refine ih b _ hc ?_ hb
          rcases List.mem_cons.1 ha with rfl | h
          · exact absurd hk h1
          · exact h
        · rw [if_pos h2]; exact ⟨_, rfl⟩
    · exact missingLoop_shared hn _ _ hc (List.mem_append_left _ ha) hk

/-- C80 violated: a parameter of both `train` and `apply` without defaults is reported missing whatever is given, so
such a learner cannot be trained. -/
theorem C80_shared_parameter_violated (c : Cls) {n : String} (h1 : n ∈ c.train.names.drop 3)
    (h2 : n ∈ c.apply.names.drop 2) (hi : n ∉ ignored) (hd : n ∉ defaults c) {args : List String} (ha : args.Nodup) :
    trainCall c args = .error .InvalidArgumentValue := by
  have hin1 : n ∈ (c.train.names.drop 2).filter (fun n => n ∉ ignored) :=
    List.mem_filter.2 ⟨by
      rw [show (3 : Nat) = 1 + 2 from rfl, Nat.add_comm, ← List.drop_drop] at h1
      exact List.mem_of_mem_drop h1, by simpa using hi⟩
  have hin2 : n ∈ (c.apply.names.drop 1).filter (fun n => n ∉ ignored) :=
    List.mem_filter.2 ⟨by
      rw [show (2 : Nat) = 1 + 1 from rfl, ← List.drop_drop] at h2
      exact List.mem_of_mem_drop h2, by simpa using hi⟩
  have hp : params c = (c.train.names.drop 2).filter (fun n => n ∉ ignored) ++
      (c.apply.names.drop 1).filter (fun n => n ∉ ignored) := by
    unfold params; rw [List.filter_append]
  obtain ⟨e, he⟩ := missingLoop_twice hd _ _ args ha hin1 hin2
  have herr : e = .InvalidArgumentValue := by
    have : ∀ (l check : List String) (e : Err), missingLoop (defaults c) l check = .error e →
        e = .InvalidArgumentValue := by
      intro l
      induction l with
      | nil => intro check e h; cases h
      | cons p l ih =>
        intro check e h
        unfold missingLoop at h
        split at h
        · exact ih _ _ h
        · split at h
          · injection h with h; exact h.symm
          · exact ih _ _ h
    exact this _ _ _ he
  subst herr
  unfold trainCall validateArgs
  rw [hp, he]
  rfl

/-- C80 violated: `getScores` must have the parameters of `apply` but is called without any: with a parameter
without a default it always fails, and a given value is never used. -/
theorem C80_scores_violated {c0 c : Cls} (hv : validate c0 = .ok c) {s : Sig} (hs : c.scores = some s) {q : Param}
    (hq : q ∈ c.apply.pos.drop 2) (hd : q.dflt = none) : scoresCall c = .error .TypeError := by
  have hpos : s.pos = c.apply.pos := by
    obtain ⟨-, -, -, -, -, h, -, -, -, rfl⟩ := (C80_validate c0 c).1 hv
    cases ht : c0.hasTrain <;> rw [ht] at hs <;> rw [(h s hs).1] <;> rfl
  unfold scoresCall
  rw [hs]
  refine call_error ?_
  intro h
  have := ((call_ok _ _ _).1 h).2.2.2 q (List.mem_append_left _ (by rw [hpos]; exact hq)) hd
  cases this

/-- C80 violated: a parameter of `train` after `*` without a default makes the learner unusable: it is not among the
parameters that may be given. -/
theorem C80_keyword_only_violated (c : Cls) {q : Param} (hq : q ∈ c.train.kwOnly) (hd : q.dflt = none)
    (hn : q.name ∉ params c) (hp : (params c).Nodup) {args : List String} (ha : args.Nodup) :
    trainCall c args ≠ .ok () := by
  intro h
  unfold trainCall at h
  simp only [bind, Except.bind] at h
  cases hx : validateArgs (params c) (defaults c) args with
  | error e => rw [hx] at h; cases h
  | ok u =>
    rw [hx] at h
    have hmem := ((call_ok _ _ _).1 h).2.2.2 q (List.mem_append_right _ hq) hd
    exact hn (((C80_arguments hp ha).1.1 hx).2 _ hmem)

/-! ## Several sets of parameters -/

theorem chooseLoop_spec (args : List String) : ∀ (sets : List ParamSet) (i : Nat) (best : Option Nat),
    (∀ s ∈ sets, s.fits args = false) ∧ chooseLoop args sets i best = best ∨
    ∃ k s, sets[k]? = some s ∧ s.fits args = true ∧ (∀ (j : Nat) s', k < j → sets[j]? = some s' → s'.fits args = false) ∧
      chooseLoop args sets i best = some (i + k) := by
  intro sets
  induction sets with
  | nil => intro i best; left; exact ⟨fun s h => (by cases h), rfl⟩
  | cons s sets ih =>
    intro i best
    unfold chooseLoop
    rcases ih (i + 1) (if s.fits args then some i else best) with ⟨h1, h2⟩ | ⟨k, s', h1, h2, h3, h4⟩
    · rw [h2]
      cases hf : s.fits args with
      | false =>
        left
        refine ⟨?_, rfl⟩
        intro s' hs'
        rcases List.mem_cons.1 hs' with rfl | hs'
        · exact hf
        · exact h1 s' hs'
      | true =>
        right
        refine ⟨0, s, rfl, hf, ?_, rfl⟩
        intro j s' hj hs'
        obtain ⟨j, rfl⟩ := Nat.exists_eq_add_of_lt hj
        rw [Nat.zero_add, List.getElem?_cons_succ] at hs'
        exact h1 s' (List.mem_of_getElem? hs')
    · right
      refine ⟨k + 1, s', by rw [List.getElem?_cons_succ]; exact h1, h2, ?_, ?_⟩
      · intro j s'' hj hs''
        obtain ⟨j, rfl⟩ : ∃ j', j = j' + 1 := ⟨j - 1, by omega⟩
        rw [List.getElem?_cons_succ] at hs''
        exact h3 j s'' (by omega) hs''
      · rw [h4]; congr 1; omega

/-- C80. Among several sets of parameters the chosen one lacks nothing, and the call is refused if all lack
something; it is the last such set. -/
theorem C80_choose {sets : List ParamSet} (hs : sets.length ≠ 1) (args : List String) :
    (∀ i, chooseBest sets args = .ok i ↔ ∃ s, sets[i]? = some s ∧ (∀ p ∈ s.names, p ∈ args ∨ p ∈ s.dflts) ∧
      ∀ (j : Nat) s', i < j → sets[j]? = some s' → ∃ p ∈ s'.names, p ∉ args ∧ p ∉ s'.dflts) ∧
    ((∀ s ∈ sets, ∃ p ∈ s.names, p ∉ args ∧ p ∉ s.dflts) ↔ chooseBest sets args = .error .InvalidArgumentValue) := by
  have ft : ∀ s : ParamSet, s.fits args = true ↔ ∀ p ∈ s.names, p ∈ args ∨ p ∈ s.dflts := by
    intro s; unfold ParamSet.fits; simp
  have ff : ∀ s : ParamSet, s.fits args = false ↔ ∃ p ∈ s.names, p ∉ args ∧ p ∉ s.dflts := by
    intro s; unfold ParamSet.fits; simp
  unfold chooseBest
  rw [if_neg hs]
  rcases chooseLoop_spec args sets 0 none with ⟨h1, h2⟩ | ⟨k, s, h1, h2, h3, h4⟩
  · rw [h2]
    refine ⟨?_, ⟨fun _ => rfl, fun _ s hs => (ff s).1 (h1 s hs)⟩⟩
    intro i
    constructor
    · intro h; cases h
    · rintro ⟨s, e1, e2, -⟩
      have := h1 s (List.mem_of_getElem? e1)
      rw [(ft s).2 e2] at this
      cases this
  · rw [h4, Nat.zero_add]
    constructor
    · intro i
      constructor
      · intro h
        injection h with h
        subst h
        exact ⟨s, h1, (ft s).1 h2, fun j s' hj hs' => (ff s').1 (h3 j s' hj hs')⟩
      · rintro ⟨s', e1, e2, e3⟩
        rcases Nat.lt_trichotomy k i with h | h | h
        · have := h3 i s' h e1
          rw [(ft s').2 e2] at this; cases this
        · subst h; rfl
        · have := (ff s).2 (e3 k s h h1)
          rw [h2] at this; cases this
    · constructor
      · intro h
        have := (ff s).2 (h s (List.mem_of_getElem? h1))
        rw [h2] at this; cases this
      · intro h; cases h

/-- C80 violated: the last set that lacks nothing is chosen, not the one that matches best: `a` and `b` are given and
are exactly the parameters of the first set, but the second set is chosen and `b` is refused. -/
theorem C80_choose_violated :
    validateArgs ["a", "b"] [] ["a", "b"] = .ok () ∧
    chooseBest [⟨["a", "b"], []⟩, ⟨["a"], []⟩] ["a", "b"] = .ok 1 ∧
    validateSets [⟨["a", "b"], []⟩, ⟨["a"], []⟩] ["a", "b"] = .error .InvalidArgumentValue := by decide +kernel

/-! ## Examples -/

/-- A class like `nimble.KNNClassifier` (`train(self, trainX, trainY, k=5)`), with a parameter `w=1` of `apply`. -/
def knnLike : Cls where
  learnerType := "classification"
  train := ⟨[⟨"self", none⟩, ⟨"trainX", none⟩, ⟨"trainY", none⟩, ⟨"k", some "5"⟩, ⟨"m", none⟩], [], false⟩
  inc := ⟨[⟨"self", none⟩, ⟨"trainX", none⟩, ⟨"trainY", none⟩], [], false⟩
  apply := ⟨[⟨"self", none⟩, ⟨"testX", none⟩, ⟨"w", some "1"⟩], [], false⟩
  scores := some ⟨[⟨"self", none⟩, ⟨"testX", none⟩, ⟨"w", some "1"⟩], [], false⟩
  init := ⟨[⟨"self", none⟩], [], false⟩
  hasTrain := true
  hasInc := false
  abstractLeft := false

/-- The hypotheses of the theorems are met by it. -/
example : validate knnLike = .ok knnLike ∧ Ordinary knnLike ∧ ["k", "m"].Nodup ∧
    validateArgs (params knnLike) (defaults knnLike) ["k", "m"] = .ok () ∧
    trainCall knnLike ["k", "m"] = .ok () ∧ applyCall knnLike ["w"] ["k", "m"] = .ok () := by
  refine ⟨by decide +kernel, ⟨?_, ?_, ?_, ?_, ?_, ?_, ?_⟩, ?_, ?_, ?_, ?_⟩ <;> decide +kernel

/-- C80 violated: an accepted argument that is a parameter of `apply` makes `train` fail, and the error is no nimble
exception. -/
theorem C80_apply_argument_violated :
    validateArgs (params knnLike) (defaults knnLike) ["m", "w"] = .ok () ∧
    trainCall knnLike ["m", "w"] = .error .TypeError := by decide +kernel

/-- C80 violated: a default of `apply` hides that `train` needs the same parameter: here `m` is not given. -/
theorem C80_hidden_default_violated :
    let c := { knnLike with apply := ⟨[⟨"self", none⟩, ⟨"testX", none⟩, ⟨"m", some "1"⟩], [], false⟩, scores := none }
    validate c = .ok c ∧ validateArgs (params c) (defaults c) [] = .ok () ∧ trainCall c [] = .error .TypeError := by
  decide +kernel

/-- C80 violated: a method with too few parameters is refused with IndexError instead of the message for it. -/
theorem C80_short_signature_violated :
    validate { knnLike with train := ⟨[⟨"self", none⟩, ⟨"trainX", none⟩], [], false⟩ } = .error .IndexError := by
  decide +kernel

/-- C80 violated: `incrementalTrain` gets every argument, also those of `train` only: a learner trained with `m`
cannot be trained incrementally. -/
theorem C80_incremental_violated : trainCall knnLike ["m"] = .ok () ∧ incCall knnLike ["m"] [] = .error .TypeError := by
  decide +kernel

/-- Classes that meet the hypotheses of `C80_apply_required_violated`, `C80_scores_violated`,
`C80_shared_parameter_violated` and `C80_keyword_only_violated`. -/
def needsW : Cls := { knnLike with
  apply := ⟨[⟨"self", none⟩, ⟨"testX", none⟩, ⟨"w", none⟩], [], false⟩
  scores := some ⟨[⟨"self", none⟩, ⟨"testX", none⟩, ⟨"w", none⟩], [], false⟩ }
def sharesM : Cls := { knnLike with
  apply := ⟨[⟨"self", none⟩, ⟨"testX", none⟩, ⟨"m", none⟩], [], false⟩, scores := none }
def keywordOnly : Cls := { knnLike with train := { knnLike.train with kwOnly := [⟨"z", none⟩] } }

example : validate needsW = .ok needsW ∧ Ordinary needsW ∧ (⟨"w", none⟩ : Param) ∈ needsW.apply.pos.drop 2 := by
  refine ⟨by decide +kernel, ⟨?_, ?_, ?_, ?_, ?_, ?_, ?_⟩, ?_⟩ <;> decide +kernel
example : validate sharesM = .ok sharesM ∧ "m" ∈ sharesM.train.names.drop 3 ∧ "m" ∈ sharesM.apply.names.drop 2 ∧
    "m" ∉ ignored ∧ "m" ∉ defaults sharesM := by decide +kernel
example : validate keywordOnly = .ok keywordOnly ∧ (⟨"z", none⟩ : Param) ∈ keywordOnly.train.kwOnly ∧
    "z" ∉ params keywordOnly ∧ (params keywordOnly).Nodup := by decide +kernel

end Nimble.Custom
