import Verif.Model.LogArgs
import Verif.Lemmas.Py

/-!
# C103: what the log records of the arguments of a call
-/

namespace Nimble
namespace LogArgs

/-! ## Specification -/

section
variable {A : Type}

/-- The argument `n` of the call is `a`: by keyword, or by position. -/
def Given (names : List String) (args : List A) (kwargs : PyDict String A) (n : String) (a : A) : Prop :=
  (n, a) ∈ kwargs ∨ ((∀ b, (n, b) ∉ kwargs) ∧ ∃ i : Nat, names[i]? = some n ∧ args[i]? = some a)

/-- `d` is the default of the argument `n`: the defaults are those of the last arguments. -/
def DefaultOf (names : List String) (defaults : List A) (n : String) (d : A) : Prop :=
  ∃ i : Nat, names[names.length - defaults.length + i]? = some n ∧ defaults[i]? = some d

/-- The argument has the value of its default. -/
def SameAsDefault (ops : ArgOps A) (names : List String) (defaults : List A) (n : String) (a : A) : Prop :=
  ∃ d, DefaultOf names defaults n d ∧ ops.eq a d = .ok true

/-- Some argument cannot be compared with its default, for another reason than its type. -/
def Raises (ops : ArgOps A) (names : List String) (defaults : List A) (args : List A)
    (kwargs : PyDict String A) (e : Err) : Prop :=
  ∃ n a d, Given names args kwargs n a ∧ DefaultOf names defaults n d ∧ ops.eq a d = .error e ∧
    e ≠ .TypeError

/-- The text recorded for an argument. -/
inductive TextOf (ops : ArgOps A) (a : A) : String → Prop where
  | func (h : ops.isCallable a = true) : TextOf ops a (ops.funcString a)
  | named (n id : String) (h : ops.isCallable a = false) (hb : ops.base a = some (some n, id)) : TextOf ops a n
  | unnamed (id : String) (h : ops.isCallable a = false) (hb : ops.base a = some (none, id)) : TextOf ops a id
  | plain (h : ops.isCallable a = false) (hb : ops.base a = none) : TextOf ops a (ops.str a)

end

/-! ## Lemmas -/

section
variable {A : Type}

theorem textOf_iff {ops : ArgOps A} {a : A} {t : String} : TextOf ops a t ↔ t = (argText ops a).1 := by
  unfold argText
  constructor
  · intro h
    cases h with
    | func h => simp [h]
    | named n id h hb => simp [h, hb]
    | unnamed id h hb => simp [h, hb]
    | plain h hb => simp [h, hb]
  · rintro rfl
    by_cases hc : ops.isCallable a = true
    · rw [if_pos hc]; exact .func hc
    · rw [if_neg hc]
      have hc : ops.isCallable a = false := by simpa using hc
      match hb : ops.base a with
      | none => exact .plain hc hb
      | some (some n, id) => exact .named n id hc hb
      | some (none, id) => exact .unnamed id hc hb

theorem foldl_set_get? {B : Type} : ∀ (l : List (String × B)) (d : PyDict String B),
    (l.map Prod.fst).Nodup → ∀ k v,
    PyDict.get? (l.foldl (fun d p => PyDict.set d p.1 p.2) d) k = some v ↔
      (k, v) ∈ l ∨ ((∀ b, (k, b) ∉ l) ∧ PyDict.get? d k = some v) := by
  intro l
  induction l with
  | nil => intro d _ k v; simp
  | cons p l ih =>
    intro d hn k v
    rw [List.map_cons, List.nodup_cons] at hn
    rw [List.foldl_cons, ih _ hn.2, PyDict.get?_set]
    obtain ⟨k0, v0⟩ := p
    have hnot : ∀ b, (k0, b) ∉ l := fun b hb => hn.1 (List.mem_map.2 ⟨(k0, b), hb, rfl⟩)
    by_cases hk : k0 = k
    · subst hk
      simp only [if_true, List.mem_cons, Prod.mk.injEq, true_and, Option.some.injEq]
      constructor
      · rintro (h | ⟨_, h⟩)
        · exact absurd h (hnot v)
        · exact Or.inl (Or.inl h.symm)
      · rintro ((h | h) | ⟨h, _⟩)
        · exact Or.inr ⟨hnot, h.symm⟩
        · exact absurd h (hnot v)
        · exact absurd (Or.inl rfl) (h v0)
    · have hne : ∀ b, (k, b) ≠ (k0, v0) := fun b e => hk (Prod.mk.inj e).1.symm
      simp only [if_neg hk, List.mem_cons, hne, false_or]

theorem foldl_set_nodup {B : Type} : ∀ (l : List (String × B)) (d : PyDict String B),
    (PyDict.keys d).Nodup → (PyDict.keys (l.foldl (fun d p => PyDict.set d p.1 p.2) d)).Nodup := by
  intro l
  induction l with
  | nil => intro d h; exact h
  | cons p l ih => intro d h; exact ih _ (PyDict.nodup_set h _ _)

theorem mem_iff_get? {B : Type} {d : PyDict String B} (h : (PyDict.keys d).Nodup) (k : String) (v : B) :
    (k, v) ∈ d ↔ PyDict.get? d k = some v :=
  ⟨fun hm => PyDict.get?_of_mem h hm, fun hg => PyDict.mem_of_get? hg⟩

theorem mem_zip_iff {B C : Type} {l : List B} {r : List C} {b : B} {c : C} :
    (b, c) ∈ l.zip r ↔ ∃ i : Nat, l[i]? = some b ∧ r[i]? = some c := by
  rw [List.mem_iff_getElem?]
  simp only [List.getElem?_zip_eq_some]

theorem zip_fst_sublist {B C : Type} : ∀ (l : List B) (r : List C), ((l.zip r).map Prod.fst).Sublist l
  | [], _ => by simp
  | _ :: _, [] => by simp
  | b :: l, _ :: r => by
    rw [List.zip_cons_cons, List.map_cons]
    exact (zip_fst_sublist l r).cons_cons b

theorem nodup_zip_fst {B C : Type} {l : List B} (h : l.Nodup) (r : List C) :
    ((l.zip r).map Prod.fst).Nodup := by
  exact (zip_fst_sublist l r).nodup h

theorem nameArgMap_mem {names : List String} (hn : names.Nodup) {args : List A} {kwargs : PyDict String A}
    (hk : (PyDict.keys kwargs).Nodup) (n : String) (a : A) :
    (n, a) ∈ nameArgMap names args kwargs ↔ Given names args kwargs n a := by
  have hnd : (PyDict.keys (nameArgMap names args kwargs)).Nodup :=
    foldl_set_nodup _ _ (foldl_set_nodup _ _ List.nodup_nil)
  rw [mem_iff_get? hnd]
  unfold nameArgMap Given
  rw [foldl_set_get? _ _ hk, foldl_set_get? _ _ (nodup_zip_fst hn _), mem_zip_iff]
  simp [PyDict.get?]

theorem nameArgMap_nodup (names : List String) (args : List A) (kwargs : PyDict String A) :
    ((nameArgMap names args kwargs).map Prod.fst).Nodup :=
  foldl_set_nodup _ _ (foldl_set_nodup _ _ List.nodup_nil)

theorem defaultDict_get? {names : List String} (hn : names.Nodup) {defaults : List A} (n : String) (d : A) :
    PyDict.get? (defaultDict names defaults) n = some d ↔ DefaultOf names defaults n d := by
  unfold defaultDict DefaultOf
  rw [foldl_set_get? _ _ (nodup_zip_fst ((List.drop_sublist _ _).nodup hn) _), mem_zip_iff]
  simp only [List.getElem?_drop]
  simp [PyDict.get?]

theorem isDefault_true {ops : ArgOps A} {names : List String} (hn : names.Nodup) {defaults : List A}
    {n : String} {a : A} :
    isDefault ops (defaultDict names defaults) n a = .ok true ↔ SameAsDefault ops names defaults n a := by
  unfold isDefault SameAsDefault
  simp only [← defaultDict_get? hn]
  cases hg : PyDict.get? (defaultDict names defaults) n with
  | none => simp
  | some d =>
    dsimp only
    cases he : ops.eq a d with
    | ok b => simp [he]
    | error e => cases e <;> simp [he]

theorem isDefault_error {ops : ArgOps A} {names : List String} (hn : names.Nodup) {defaults : List A}
    {n : String} {a : A} {e : Err} :
    isDefault ops (defaultDict names defaults) n a = .error e ↔
      ∃ d, DefaultOf names defaults n d ∧ ops.eq a d = .error e ∧ e ≠ .TypeError := by
  unfold isDefault
  simp only [← defaultDict_get? hn]
  cases hg : PyDict.get? (defaultDict names defaults) n with
  | none => simp
  | some d =>
    dsimp only
    cases he : ops.eq a d with
    | ok b => simp [he]
    | error e' =>
      cases e' <;> cases e <;> simp [he]

theorem buildLoop_ok {ops : ArgOps A} {defs : PyDict String A} : ∀ (ps : List (String × A))
    (acc : PyDict String String × List String), (ps.map Prod.fst).Nodup →
    (∀ p ∈ ps, ∃ b, isDefault ops defs p.1 p.2 = .ok b) →
    ∃ out, buildLoop ops defs ps acc = .ok out ∧
      (∀ n t, PyDict.get? out.1 n = some t ↔
        (∃ a, (n, a) ∈ ps ∧ isDefault ops defs n a = .ok false ∧ t = (argText ops a).1) ∨
        ((∀ a, (n, a) ∈ ps → isDefault ops defs n a = .ok true) ∧ PyDict.get? acc.1 n = some t)) ∧
      (∀ i, i ∈ out.2 ↔ i ∈ acc.2 ∨ ∃ n a, (n, a) ∈ ps ∧ isDefault ops defs n a = .ok false ∧
        i ∈ (argText ops a).2) := by
  intro ps
  induction ps with
  | nil =>
    intro acc _ _
    exact ⟨acc, rfl, by simp, by simp⟩
  | cons p ps ih =>
    intro acc hn hd
    rw [List.map_cons, List.nodup_cons] at hn
    obtain ⟨k0, v0⟩ := p
    have hnot : ∀ b, (k0, b) ∉ ps := fun b hb => hn.1 (List.mem_map.2 ⟨(k0, b), hb, rfl⟩)
    obtain ⟨b, hb⟩ := hd (k0, v0) List.mem_cons_self
    dsimp only at hb
    have hd' := fun q hq => hd q (List.mem_cons_of_mem _ hq)
    cases b with
    | true =>
      obtain ⟨out, h1, h2, h3⟩ := ih acc hn.2 hd'
      refine ⟨out, ?_, ?_, ?_⟩
      · unfold buildLoop
        dsimp only
        rw [hb]
        exact h1
      · intro n t
        rw [h2]
        by_cases hk : n = k0
        · subst hk
          simp only [List.mem_cons, Prod.mk.injEq, true_and]
          constructor
          · rintro (⟨a, ha, _⟩ | ⟨_, hg⟩)
            · exact absurd ha (hnot a)
            · refine Or.inr ⟨?_, hg⟩
              rintro a (rfl | ha)
              · exact hb
              · exact absurd ha (hnot a)
          · rintro (⟨a, rfl | ha, hf, _⟩ | ⟨_, hg⟩)
            · rw [hb] at hf; cases hf
            · exact absurd ha (hnot a)
            · exact Or.inr ⟨fun a ha => absurd ha (hnot a), hg⟩
        · simp only [List.mem_cons, Prod.mk.injEq, hk, false_and, false_or]
      · intro i
        rw [h3]
        constructor
        · rintro (h | ⟨n, a, h, h'⟩)
          · exact Or.inl h
          · exact Or.inr ⟨n, a, List.mem_cons_of_mem _ h, h'⟩
        · rintro (h | ⟨n, a, h, h', h''⟩)
          · exact Or.inl h
          · rcases List.mem_cons.1 h with e | h
            · cases e
              rw [hb] at h'; cases h'
            · exact Or.inr ⟨n, a, h, h', h''⟩
    | false =>
      obtain ⟨out, h1, h2, h3⟩ := ih
        (PyDict.set acc.1 k0 (argText ops v0).1, acc.2 ++ (argText ops v0).2) hn.2 hd'
      refine ⟨out, ?_, ?_, ?_⟩
      · unfold buildLoop
        dsimp only
        rw [hb]
        exact h1
      · intro n t
        rw [h2, PyDict.get?_set]
        by_cases hk : n = k0
        · subst hk
          simp only [List.mem_cons, Prod.mk.injEq, true_and, if_true, Option.some.injEq]
          constructor
          · rintro (⟨a, ha, _⟩ | ⟨_, hg⟩)
            · exact absurd ha (hnot a)
            · exact Or.inl ⟨v0, Or.inl rfl, hb, hg.symm⟩
          · rintro (⟨a, rfl | ha, _, ht⟩ | ⟨h, _⟩)
            · exact Or.inr ⟨fun a ha => absurd ha (hnot a), ht.symm⟩
            · exact absurd ha (hnot a)
            · have := h v0 (Or.inl rfl)
              rw [hb] at this; cases this
        · simp only [List.mem_cons, Prod.mk.injEq, hk, false_and, false_or, if_neg (Ne.symm hk)]
      · intro i
        rw [h3, List.mem_append]
        constructor
        · rintro ((h | h) | ⟨n, a, h, h'⟩)
          · exact Or.inl h
          · exact Or.inr ⟨k0, v0, List.mem_cons_self, hb, h⟩
          · exact Or.inr ⟨n, a, List.mem_cons_of_mem _ h, h'⟩
        · rintro (h | ⟨n, a, h, h', h''⟩)
          · exact Or.inl (Or.inl h)
          · rcases List.mem_cons.1 h with e | h
            · cases e
              exact Or.inl (Or.inr h'')
            · exact Or.inr ⟨n, a, h, h', h''⟩

theorem buildLoop_error {ops : ArgOps A} {defs : PyDict String A} : ∀ (ps : List (String × A))
    (acc : PyDict String String × List String),
    (∃ p ∈ ps, ∃ e, isDefault ops defs p.1 p.2 = .error e) →
    ∃ e, buildLoop ops defs ps acc = .error e ∧ ∃ p ∈ ps, isDefault ops defs p.1 p.2 = .error e := by
  intro ps
  induction ps with
  | nil => rintro acc ⟨p, hp, _⟩; cases hp
  | cons p ps ih =>
    rintro acc ⟨q, hq, e, he⟩
    unfold buildLoop
    cases hb : isDefault ops defs p.1 p.2 with
    | error e' => exact ⟨e', rfl, p, List.mem_cons_self, hb⟩
    | ok b =>
      have hq' : q ∈ ps := by
        rcases List.mem_cons.1 hq with rfl | hq
        · rw [hb] at he; cases he
        · exact hq
      cases b with
      | true =>
        obtain ⟨e', h1, r, hr, h2⟩ := ih acc ⟨q, hq', e, he⟩
        exact ⟨e', h1, r, List.mem_cons_of_mem _ hr, h2⟩
      | false =>
        obtain ⟨e', h1, r, hr, h2⟩ := ih
          (PyDict.set acc.1 p.1 (argText ops p.2).1, acc.2 ++ (argText ops p.2).2) ⟨q, hq', e, he⟩
        exact ⟨e', h1, r, List.mem_cons_of_mem _ hr, h2⟩

/-! ## Theorems -/

/-- C103. The log entry of a call records exactly the arguments which were given, by position or by keyword,
and do not have the value of their default, each with its text, and the ids of the named nimble objects
among them; unless an argument cannot be compared with its default. -/
theorem C103_arguments_partial (ops : ArgOps A) {names : List String} (hn : names.Nodup) (defaults : List A)
    (args : List A) {kwargs : PyDict String A} (hk : (PyDict.keys kwargs).Nodup)
    (hr : ∀ e, ¬ Raises ops names defaults args kwargs e) :
    ∃ d ids, buildArgDict ops names defaults args kwargs = .ok (d, ids) ∧
      (∀ n t, PyDict.get? d n = some t ↔ ∃ a, Given names args kwargs n a ∧
        ¬ SameAsDefault ops names defaults n a ∧ TextOf ops a t) ∧
      (∀ i, i ∈ ids ↔ ∃ n a nm, Given names args kwargs n a ∧ ¬ SameAsDefault ops names defaults n a ∧
        ops.isCallable a = false ∧ ops.base a = some (some nm, i)) := by
  have hall : ∀ n a, (n, a) ∈ nameArgMap names args kwargs →
      ∃ b, isDefault ops (defaultDict names defaults) n a = .ok b := by
    intro n a hp
    cases h : isDefault ops (defaultDict names defaults) n a with
    | ok b => exact ⟨b, rfl⟩
    | error e =>
      obtain ⟨d, h1, h2, h3⟩ := (isDefault_error hn).1 h
      exact absurd ⟨n, a, d, (nameArgMap_mem hn hk n a).1 hp, h1, h2, h3⟩ (hr e)
  have hfalse : ∀ n a, (n, a) ∈ nameArgMap names args kwargs →
      (isDefault ops (defaultDict names defaults) n a = .ok false ↔ ¬ SameAsDefault ops names defaults n a) := by
    intro n a hp
    rw [← isDefault_true hn]
    obtain ⟨b, hb⟩ := hall n a hp
    rw [hb]
    cases b <;> simp
  obtain ⟨out, h1, h2, h3⟩ := buildLoop_ok (ops := ops) (defs := defaultDict names defaults)
    (nameArgMap names args kwargs) ([], []) (nameArgMap_nodup _ _ _) (fun p hp => hall p.1 p.2 hp)
  refine ⟨out.1, out.2, h1, ?_, ?_⟩
  · intro n t
    rw [h2]
    constructor
    · rintro (⟨a, ha, hf, ht⟩ | ⟨_, hg⟩)
      · exact ⟨a, (nameArgMap_mem hn hk n a).1 ha, (hfalse n a ha).1 hf, textOf_iff.2 ht⟩
      · simp [PyDict.get?] at hg
    · rintro ⟨a, ha, hf, ht⟩
      have ha := (nameArgMap_mem hn hk n a).2 ha
      exact Or.inl ⟨a, ha, (hfalse n a ha).2 hf, textOf_iff.1 ht⟩
  · intro i
    rw [h3]
    have htext : ∀ a, i ∈ (argText ops a).2 ↔
        ∃ nm, ops.isCallable a = false ∧ ops.base a = some (some nm, i) := by
      intro a
      unfold argText
      by_cases hc : ops.isCallable a = true
      · simp [hc]
      · have hc : ops.isCallable a = false := by simpa using hc
        match hb : ops.base a with
        | none => simp [hc]
        | some (some n, id) => simp [hc, eq_comm]
        | some (none, id) => simp [hc]
    constructor
    · rintro (h | ⟨n, a, ha, hf, hi⟩)
      · cases h
      · obtain ⟨nm, h4, h5⟩ := (htext a).1 hi
        exact ⟨n, a, nm, (nameArgMap_mem hn hk n a).1 ha, (hfalse n a ha).1 hf, h4, h5⟩
    · rintro ⟨n, a, nm, ha, hf, h4, h5⟩
      have ha := (nameArgMap_mem hn hk n a).2 ha
      exact Or.inr ⟨n, a, ha, (hfalse n a ha).2 hf, (htext a).2 ⟨nm, h4, h5⟩⟩

/-- C103. If the method succeeds, the call has its effect, and with logging exactly one entry is added
to the log; without logging the log is unchanged. -/
theorem C103_call_partial {S : Type} (ops : ArgOps A) {names : List String} (hn : names.Nodup)
    (defaults : List A) (run : S → S × Res Unit) (args : List A) {kwargs : PyDict String A}
    (hk : (PyDict.keys kwargs).Nodup) (s s' : S) (log : List (PyDict String String))
    (hrun : run s = (s', .ok ())) :
    prepLog ops names defaults false run args kwargs s log = (s', log, .ok ()) ∧
    ((∀ e, ¬ Raises ops names defaults args kwargs e) →
      ∃ d ids, buildArgDict ops names defaults args kwargs = .ok (d, ids) ∧
        prepLog ops names defaults true run args kwargs s log = (s', log ++ [d], .ok ())) := by
  constructor
  · unfold prepLog
    rw [hrun]
    rfl
  · intro hr
    obtain ⟨d, ids, h, _⟩ := C103_arguments_partial ops hn defaults args hk hr
    refine ⟨d, ids, h, ?_⟩
    unfold prepLog
    rw [hrun, h]
    rfl

/-- C103 is violated by the code: if an argument cannot be compared with its default (a numpy array
with `None`: `ValueError`), the call raises although the object has already been changed, and the log has
no entry of it. -/
theorem C103_raises_violated {S : Type} (ops : ArgOps A) {names : List String} (hn : names.Nodup)
    (defaults : List A) (run : S → S × Res Unit) (args : List A) {kwargs : PyDict String A}
    (hk : (PyDict.keys kwargs).Nodup) (s s' : S) (log : List (PyDict String String))
    (hrun : run s = (s', .ok ())) {e0 : Err} (hr : Raises ops names defaults args kwargs e0) :
    ∃ e, prepLog ops names defaults true run args kwargs s log = (s', log, .error e) ∧
      Raises ops names defaults args kwargs e := by
  obtain ⟨n, a, d, h1, h2, h3, h4⟩ := hr
  obtain ⟨e, h5, p, hp, h6⟩ := buildLoop_error (ops := ops) (defs := defaultDict names defaults)
    (nameArgMap names args kwargs) ([], [])
    ⟨(n, a), (nameArgMap_mem hn hk n a).2 h1, e0, (isDefault_error hn).2 ⟨d, h2, h3, h4⟩⟩
  obtain ⟨d', h7, h8, h9⟩ := (isDefault_error hn).1 h6
  refine ⟨e, ?_, p.1, p.2, d', (nameArgMap_mem hn hk _ _).1 hp, h7, h8, h9⟩
  unfold prepLog
  rw [hrun]
  have : buildArgDict ops names defaults args kwargs = .error e := h5
  rw [this]
  rfl

end

/-! ## The source text of a lambda -/

/-- The number of brackets open after a piece of text, which starts inside the bracket of a call. -/
def depthOf (s : List Char) : Int :=
  1 + s.countP (fun c => decide (c ∈ ['(', '[', '{'])) - s.countP (fun c => decide (c ∈ [')', ']', '}']))

/-- The text of an argument in a call: brackets are closed only if they were opened in it, and no comma
after the first colon is outside of brackets. -/
structure ArgSource (s : List Char) : Prop where
  inside : ∀ p c q, s = p ++ c :: q → 1 ≤ depthOf (p ++ [c])
  commas : ∀ p q, s = p ++ ',' :: q → ':' ∈ p → depthOf p ≠ 1

theorem isOpener_eq : isOpener = fun c => decide (c ∈ ['(', '[', '{']) := by
  funext c
  simp [isOpener, Bool.or_assoc, Bool.beq_eq_decide_eq]

theorem isCloser_eq : isCloser = fun c => decide (c ∈ [')', ']', '}']) := by
  funext c
  simp [isCloser, Bool.or_assoc, Bool.beq_eq_decide_eq]

theorem depthOf_cons (c : Char) (s : List Char) :
    depthOf (c :: s) = depthOf s + (if isOpener c then 1 else 0) - (if isCloser c then 1 else 0) := by
  unfold depthOf
  rw [← isOpener_eq, ← isCloser_eq, List.countP_cons, List.countP_cons]
  split <;> split <;> simp <;> omega

theorem scan_body : ∀ (body rest : List Char) (d : Int) (after : Bool), 1 ≤ d →
    (∀ p c q, body = p ++ c :: q → 1 ≤ d - 1 + depthOf (p ++ [c])) →
    (∀ p q, body = p ++ ',' :: q → (after = true ∨ ':' ∈ p) → d - 1 + depthOf p ≠ 1) →
    lambdaScan d after (body ++ rest) =
      body ++ lambdaScan (d - 1 + depthOf body) (after || decide (':' ∈ body)) rest := by
  intro body
  induction body with
  | nil =>
    intro rest d after hd h1 h2
    simp [depthOf]
  | cons c body ih =>
    intro rest d after hd h1 h2
    have hc := h1 [] c body rfl
    have hoc : isOpener c = true → isCloser c = false := by
      intro h
      unfold isOpener at h
      unfold isCloser
      simp only [Bool.or_eq_true, beq_iff_eq] at h
      rcases h with (rfl | rfl) | rfl <;> decide
    have hstep : ∀ (d' : Int) (after' : Bool),
        d' = d + (if isOpener c then 1 else 0) - (if isCloser c then 1 else 0) →
        after' = (after || decide (c = ':')) → 1 ≤ d' →
        c :: lambdaScan d' after' (body ++ rest) =
          (c :: body) ++ lambdaScan (d - 1 + depthOf (c :: body)) (after || decide (':' ∈ c :: body)) rest := by
      intro d' after' hd' ha' hd1
      rw [ih rest d' after' hd1]
      · rw [List.cons_append, depthOf_cons]
        congr 3
        · omega
        · rw [ha', Bool.or_assoc]
          congr 1
          rw [Bool.eq_iff_iff, Bool.or_eq_true, decide_eq_true_eq, decide_eq_true_eq, decide_eq_true_eq,
            List.mem_cons]
          exact or_congr_left ⟨Eq.symm, Eq.symm⟩
      · intro p x q e
        have := h1 (c :: p) x q (by rw [e]; rfl)
        rw [List.cons_append, depthOf_cons] at this
        omega
      · intro p q e hh
        have := h2 (c :: p) q (by rw [e]; rfl) (by
          rw [ha', Bool.or_eq_true, decide_eq_true_eq] at hh
          rcases hh with (hh | hh) | hh
          · exact Or.inl hh
          · exact Or.inr (by rw [hh]; exact List.mem_cons_self)
          · exact Or.inr (List.mem_cons_of_mem _ hh))
        rw [depthOf_cons] at this
        omega
    have hc' : 1 ≤ d + (if isOpener c then 1 else 0) - (if isCloser c then 1 else 0) := by
      rw [List.nil_append, depthOf_cons] at hc
      simp only [depthOf, List.countP_nil] at hc
      omega
    rw [List.cons_append, lambdaScan]
    by_cases ho : isOpener c = true
    · have hcl := hoc ho
      have hne : c ≠ ':' := by rintro rfl; exact absurd ho (by decide)
      rw [if_pos ho, if_neg (by omega)]
      exact hstep (d + 1) after (by simp [ho, hcl]) (by simp [hne]) (by omega)
    · rw [if_neg ho]
      by_cases hcl : isCloser c = true
      · have hne : c ≠ ':' := by rintro rfl; exact absurd hcl (by decide)
        rw [if_neg ho, if_pos hcl] at hc'
        rw [if_pos hcl, if_neg (by omega)]
        exact hstep (d - 1) after (by simp [ho, hcl]) (by simp [hne]) (by omega)
      · rw [if_neg hcl]
        by_cases hcolon : c = ':'
        · rw [if_pos hcolon, if_neg (by omega)]
          exact hstep d true (by simp [ho, hcl]) (by simp [hcolon]) hd
        · rw [if_neg hcolon]
          rw [if_neg, if_neg (by omega)]
          · exact hstep d after (by simp [ho, hcl]) (by simp [hcolon]) hd
          · rintro ⟨rfl, ha, hd1⟩
            have := h2 [] body rfl (Or.inl ha)
            simp only [depthOf, List.countP_nil] at this
            omega

/-- C103. The text recorded for a lambda is its source text, if the brackets in it match: up to the
bracket which closes the call, up to the comma before the next argument, or the rest of the line.
Missing: brackets, colons and commas inside string constants and colons of default values are
not told apart (counterexamples below); a lambda on several lines. -/
theorem C103_lambda_partial (body rest : List Char) (h : ArgSource body)
    (hend : rest = [] ∨ (depthOf body = 1 ∧ ((∃ c r, rest = c :: r ∧ c ∈ [')', ']', '}']) ∨
      (':' ∈ body ∧ ∃ r, rest = ',' :: r)))) : lambdaString (body ++ rest) = body := by
  unfold lambdaString
  rw [scan_body body rest 1 false (by omega) (fun p c q e => by have := h.inside p c q e; omega)
    (fun p q e hh => by
      have := h.commas p q e (by rcases hh with hh | hh; cases hh; exact hh)
      omega)]
  have : lambdaScan (1 - 1 + depthOf body) (false || decide (':' ∈ body)) rest = [] := by
    rcases hend with rfl | ⟨hd, ⟨c, r, rfl, hc⟩ | ⟨hm, r, rfl⟩⟩
    · rfl
    · have hc : isCloser c = true := by rw [isCloser_eq]; simpa using hc
      have ho : isOpener c = false := by
        unfold isCloser at hc
        unfold isOpener
        simp only [Bool.or_eq_true, beq_iff_eq] at hc
        rcases hc with (rfl | rfl) | rfl <;> decide
      unfold lambdaScan
      rw [if_neg (by simp [ho]), if_pos hc, hd]
      rfl
    · have h1 : isOpener ',' = false := by decide
      have h2 : isCloser ',' = false := by decide
      unfold lambdaScan
      rw [if_neg (by simp [h1]), if_neg (by simp [h2]), if_neg (by decide), if_pos ⟨rfl, by simp [hm], by omega⟩]
  rw [this, List.append_nil]

/-- Cases of `C103_lambda_partial`. -/
example : lambdaString "lambda x: x + 1, features=0)".toList = "lambda x: x + 1".toList ∧
    lambdaString "lambda x, y: f(x, [y, 1]))".toList = "lambda x, y: f(x, [y, 1])".toList := by
  decide +kernel

/-- C103 is violated by the code: a bracket in a string constant ends the lambda, and so does the comma
after a default value with a colon. -/
theorem C103_lambda_violated :
    lambdaString "lambda x: x == ')')".toList = "lambda x: x == '".toList ∧
    lambdaString "lambda x, y={1: 2}, z=0: z)".toList = "lambda x, y={1: 2}".toList := by
  decide +kernel

/-! ## Arguments which can be read back -/

theorem evals_orRepr (rep : LVal → String) (v : LVal) : evals (orRepr rep v) = true := by
  unfold orRepr
  split
  · assumption
  · rfl

theorem orRepr_of_evals {rep : LVal → String} {v : LVal} (h : evals v = true) : orRepr rep v = v := by
  unfold orRepr
  rw [if_pos h]

theorem evalsL_iff : ∀ l : List LVal, evalsL l = true ↔ ∀ v ∈ l, evals v = true := by
  intro l
  induction l with
  | nil => simp [evalsL]
  | cons v l ih => simp [evalsL, ih]

theorem evalsD_iff : ∀ l : List (LVal × LVal), evalsD l = true ↔
    ∀ p ∈ l, evals p.1 = true ∧ evals p.2 = true := by
  intro l
  induction l with
  | nil => simp [evalsD]
  | cons p l ih =>
    obtain ⟨k, v⟩ := p
    simp [evalsD, ih]

theorem literalOnlyL_eq (rep : LVal → String) : ∀ l : List LVal,
    literalOnlyL rep l = l.map (fun v => orRepr rep (literalOnly rep v)) := by
  intro l
  induction l with
  | nil => rfl
  | cons v l ih => simp [literalOnlyL, ih]

theorem literalOnlyD_eq (rep : LVal → String) : ∀ l : List (LVal × LVal),
    literalOnlyD rep l = l.map (fun p => (p.1, orRepr rep (literalOnly rep p.2))) := by
  intro l
  induction l with
  | nil => rfl
  | cons p l ih =>
    obtain ⟨k, v⟩ := p
    simp [literalOnlyD, ih]

/-- C103. The arguments recorded for a run, given as a dict whose keys are constants (names) or as a list,
can always be read back from their text. -/
theorem C103_readable (rep : LVal → String) :
    (∀ l, evals (literalOnly rep (.lst l)) = true) ∧
    (∀ l : List (LVal × LVal), (∀ p ∈ l, evals p.1 = true) → evals (literalOnly rep (.dict l)) = true) := by
  constructor
  · intro l
    simp only [literalOnly, evals, evalsL_iff, literalOnlyL_eq, List.forall_mem_map]
    exact fun v _ => evals_orRepr _ _
  · intro l hl
    simp only [literalOnly, evals, evalsD_iff, literalOnlyD_eq, List.forall_mem_map]
    exact fun p hp => ⟨hl p hp, evals_orRepr _ _⟩

mutual
theorem literalOnly_id (rep : LVal → String) : ∀ v, evals v = true → literalOnly rep v = v
  | .const _, _ => rfl
  | .other _, _ => rfl
  | .tup _, _ => rfl
  | .lst l, h => by
    simp only [literalOnly]
    rw [literalOnlyL_id rep l (by simpa [evals] using h)]
  | .dict l, h => by
    simp only [literalOnly]
    rw [literalOnlyD_id rep l (by simpa [evals] using h)]
theorem literalOnlyL_id (rep : LVal → String) : ∀ l, evalsL l = true → literalOnlyL rep l = l
  | [], _ => rfl
  | v :: l, h => by
    simp only [evalsL, Bool.and_eq_true] at h
    simp only [literalOnlyL]
    rw [literalOnly_id rep v h.1, orRepr_of_evals h.1, literalOnlyL_id rep l h.2]
theorem literalOnlyD_id (rep : LVal → String) : ∀ l, evalsD l = true → literalOnlyD rep l = l
  | [], _ => rfl
  | (k, v) :: l, h => by
    simp only [evalsD, Bool.and_eq_true] at h
    simp only [literalOnlyD]
    rw [literalOnly_id rep v h.1.2, orRepr_of_evals h.1.2, literalOnlyD_id rep l h.2]
end

/-- C103. Arguments whose text can be read back are recorded as they are, and the others keep their
places and names: an element which is no list and no dict is replaced by its `repr` exactly if it cannot
be read back, and a list among them is recorded element by element. -/
theorem C103_unchanged (rep : LVal → String) :
    (∀ v, evals v = true → literalOnly rep v = v) ∧
    (∀ l : List (LVal × LVal), ∃ l', literalOnly rep (.dict l) = .dict l' ∧
      l'.map Prod.fst = l.map Prod.fst ∧
      ∀ (i : Nat) (k : LVal) (s : String), l[i]? = some (k, .other s) → l'[i]? = some (k, .const (rep (.other s)))) ∧
    (∀ (l : List (LVal × LVal)) (i : Nat) (k : LVal) (m : List LVal), l[i]? = some (k, .lst m) →
      ∃ l' m', literalOnly rep (.dict l) = .dict l' ∧ l'[i]? = some (k, .lst m') ∧
        literalOnly rep (.lst m) = .lst m' ∧ m'.length = m.length) ∧
    (∀ (l : List LVal), ∃ l', literalOnly rep (.lst l) = .lst l' ∧ l'.length = l.length ∧
      (∀ (i : Nat) (s : String), l[i]? = some (.other s) → l'[i]? = some (.const (rep (.other s)))) ∧
      (∀ (i : Nat) (m : List LVal), l[i]? = some (.lst m) → l'[i]? = some (literalOnly rep (.lst m)))) := by
  refine ⟨literalOnly_id rep, fun l => ⟨_, rfl, ?_, ?_⟩, fun l i k m h => ⟨_, _, rfl, ?_, rfl, ?_⟩,
    fun l => ⟨_, rfl, ?_, ?_, ?_⟩⟩
  · rw [literalOnlyD_eq, List.map_map]
    rfl
  · intro i k s h
    rw [literalOnlyD_eq, List.getElem?_map, h]
    simp [literalOnly, orRepr, evals]
  · rw [literalOnlyD_eq, List.getElem?_map, h]
    have := (C103_readable rep).1 m
    rw [Option.map_some, orRepr_of_evals this]
    rfl
  · rw [literalOnlyL_eq, List.length_map]
  · rw [literalOnlyL_eq, List.length_map]
  · intro i s h
    rw [literalOnlyL_eq, List.getElem?_map, h]
    simp [literalOnly, orRepr, evals]
  · intro i m h
    rw [literalOnlyL_eq, List.getElem?_map, h]
    have := (C103_readable rep).1 m
    rw [Option.map_some, orRepr_of_evals this]

/-! ## Concrete cases -/

/-- Values for the examples: `None`, integers and numpy arrays, which cannot be compared with `None`. -/
inductive EV where
  | none
  | int (k : Nat)
  | arr
  deriving DecidableEq, Repr

def evOps : ArgOps EV where
  eq := fun a b => if a = .arr then .error .ValueError else .ok (decide (a = b))
  isCallable := fun _ => false
  funcString := fun _ => ""
  base := fun _ => none
  str := fun a => match a with
    | .none => "None"
    | .int k => toString k
    | .arr => "[0 1]"

/-- A case of `C103_arguments_partial`: `extract(3, start=None, end=7)`. -/
example : buildArgDict evOps ["toExtract", "start", "end"] [.none, .none, .none] [.int 3]
    [("start", .none), ("end", .int 7)] = .ok ([("toExtract", "3"), ("end", "7")], []) := by
  decide +kernel

/-- A case of `C103_raises_violated`: the state is 5 before and 6 after the call, which raises. -/
example : prepLog evOps ["toExtract"] [.none] true (fun n : Nat => (n + 1, .ok ())) [.arr] [] 5 []
    = (6, [], .error .ValueError) := by decide +kernel

example : Raises evOps ["toExtract"] [.none] [.arr] [] .ValueError :=
  ⟨"toExtract", .arr, .none, Or.inr ⟨by simp, 0, rfl, rfl⟩, ⟨0, rfl, rfl⟩, rfl, by decide⟩

example : ArgSource "lambda x: x".toList := by
  constructor
  · intro p c q e
    have hc : ∀ x ∈ p ++ [c], decide (x ∈ [')', ']', '}']) = false := by
      intro x hx
      have hx' : x ∈ "lambda x: x".toList := by rw [e]; simp at hx ⊢; tauto
      have hall : ∀ y ∈ "lambda x: x".toList, decide (y ∈ [')', ']', '}']) = false := by decide +kernel
      exact hall x hx'
    have : (p ++ [c]).countP (fun c => decide (c ∈ [')', ']', '}'])) = 0 := by
      rw [List.countP_eq_zero]
      intro x hx
      rw [hc x hx]; simp
    unfold depthOf
    omega
  · intro p q e
    have h1 : ',' ∈ "lambda x: x".toList := by rw [e]; simp
    have h2 : ',' ∉ "lambda x: x".toList := by decide +kernel
    exact absurd h1 h2

end LogArgs
end Nimble
