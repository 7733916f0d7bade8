import Verif.Model.Match
import Verif.Spec
import Verif.Lemmas.Structural
import Mathlib.Tactic.Linarith
import Mathlib.Algebra.Order.Field.Rat

/-! # C71: the functions of `nimble.match` -/

namespace Nimble.Match

/-! ## Values -/

/-- What the documentation says: missing values are `None` and nan. -/
theorem C71_missing (v : Val) : missing v = true ↔ v = .none ∨ ∃ np, v = .flt np .nan := by
  cases v with
  | flt np f => cases f <;> simp [missing, pyEq, Val.num, numEq, Flt.eq]
  | _ => simp [missing, pyEq, Val.num, numEq, Flt.eq]

/-- A number is an integer or a float, of Python or numpy, and no boolean. -/
theorem C71_numeric (v : Val) : numeric v = true ↔ (∃ np i, v = .int np i) ∨ ∃ np f, v = .flt np f := by
  cases v <;> simp [numeric, isNumberType, boolean]

/-- The paired functions are complements. -/
theorem C71_complements (v : Val) : nonMissing v = !missing v ∧ nonNumeric v = !numeric v ∧
    nonZero v = !zero v := ⟨rfl, rfl, rfl⟩

/-- The real value a boolean or a finite number has. -/
def Val.real? : Val → Option Rat
  | .bool _ b => some (if b then 1 else 0)
  | .int _ i => some i
  | .flt _ (.fin q) => some q
  | _ => Option.none

/-- `zero`, `positive` and `negative` on anything with a finite value. -/
theorem C71_sign_finite {v : Val} {q : Rat} (h : v.real? = some q) :
    (zero v = true ↔ q = 0) ∧ (positive v = true ↔ 0 < q) ∧ (negative v = true ↔ q < 0) ∧
    infinity v = false := by
  cases v with
  | flt np f =>
    cases f <;> simp [Val.real?] at h
    subst h
    simp [zero, positive, negative, infinity, pyEq, Val.num, numEq, Flt.eq, catchType, cmp0, Flt.pos, Flt.neg,
      Flt.isInf]
  | _ =>
    simp [Val.real?] at h <;> subst h <;>
    simp [zero, positive, negative, infinity, pyEq, Val.num, numEq, Flt.eq, catchType, cmp0, Flt.pos, Flt.neg,
      Flt.isInf]

/-- On infinities: exactly the sign and `infinity`. -/
theorem C71_sign_infinite (np : Bool) :
    positive (.flt np .inf) = true ∧ negative (.flt np .inf) = false ∧ zero (.flt np .inf) = false ∧
    infinity (.flt np .inf) = true ∧ positive (.flt np .ninf) = false ∧
    negative (.flt np .ninf) = true ∧ zero (.flt np .ninf) = false ∧ infinity (.flt np .ninf) = true :=
  ⟨rfl, rfl, rfl, rfl, rfl, rfl, rfl, rfl⟩

/-- Missing values and text are neither zero, positive, negative nor infinite; and no exception is
raised for them. -/
theorem C71_sign_none {v : Val} (h : missing v = true ∨ ∃ s, v = .str s) :
    zero v = false ∧ positive v = false ∧ negative v = false ∧ infinity v = false := by
  rcases h with h | ⟨s, rfl⟩
  · rcases (C71_missing v).1 h with rfl | ⟨np, rfl⟩ <;> exact ⟨rfl, rfl, rfl, rfl⟩
  · exact ⟨rfl, rfl, rfl, rfl⟩

/-- At most one of the three signs. -/
theorem C71_sign_exclusive (v : Val) :
    ¬ (zero v = true ∧ positive v = true) ∧ ¬ (zero v = true ∧ negative v = true) ∧
    ¬ (positive v = true ∧ negative v = true) := by
  cases hr : v.real? with
  | some q =>
    obtain ⟨h1, h2, h3, _⟩ := C71_sign_finite hr
    rw [h1, h2, h3]
    refine ⟨?_, ?_, ?_⟩ <;> rintro ⟨a, b⟩ <;> linarith
  | none =>
    cases v with
    | none => exact ⟨by decide, by decide, by decide⟩
    | str s => exact ⟨by simp [zero, pyEq, Val.num, numEq], by simp [zero, pyEq, Val.num, numEq],
        by simp [positive, cmp0, Val.num, catchType]⟩
    | flt np f =>
      cases f <;> simp [Val.real?] at hr <;>
        simp [zero, positive, negative, pyEq, Val.num, numEq, Flt.eq, catchType, cmp0, Flt.pos, Flt.neg]
    | bool np b => simp [Val.real?] at hr
    | int np i => simp [Val.real?] at hr

/-- The documented types: numbers are split into integers and floats; `integer` also takes Python's
booleans (documented, `integer(True)`). -/
theorem C71_types (v : Val) :
    (numeric v = true ↔ (integer v = true ∧ boolean v = false) ∨ floating v = true) ∧
    (boolean v = true → floating v = false ∧ numeric v = false) ∧
    (boolean v = true ↔ ∃ np b, v = .bool np b) := by
  cases v <;> simp [numeric, isNumberType, boolean, integer, floating]

/-- Python's booleans: `true` and `false` as documented, and nothing that is no boolean type. -/
theorem C71_true_false_partial (v : Val) (h : ∀ b, v ≠ .bool true b) :
    (true' v = true ↔ boolean v = true ∧ v.real? = some 1) ∧
    (false' v = true ↔ boolean v = true ∧ v.real? = some 0) := by
  cases v with
  | bool np b => cases np <;> cases b <;> simp_all [true', false', boolean, Val.real?]
  | _ => simp [true', false', boolean]

/-- numpy's `True` is a "boolean type equal to True", but `true` says `False`; the same for
`false`. -/
theorem C71_true_false_violated : ∀ b, boolean (.bool true b) = true ∧ true' (.bool true b) = false ∧
    false' (.bool true b) = false := by decide

/-! ## Match arguments -/

/-- A match argument as documented: equal to the constant, with `None` matching `None` and nan
matching nan. -/
def MatchesConst (c x : Val) : Prop :=
  pyEq x c = true ∨ ∃ np np', c = .flt np .nan ∧ x = .flt np' .nan

theorem pyEq_self (v : Val) : pyEq v v = false ↔ ∃ np, v = .flt np .nan := by
  cases v with
  | flt np f => cases f <;> simp [pyEq, Val.num, numEq, Flt.eq]
  | _ => simp [pyEq, Val.num, numEq, Flt.eq]

theorem pyEq_none (x : Val) : pyEq x .none = true ↔ x = .none := by
  cases x <;> simp [pyEq, Val.num, numEq]

theorem pyEq_nan (x : Val) (np : Bool) : pyEq x (.flt np .nan) = false := by
  cases x with
  | flt _ f => cases f <;> simp [pyEq, Val.num, numEq, Flt.eq]
  | _ => simp [pyEq, Val.num, numEq, Flt.eq]

theorem constMatch_iff (c x : Val) : constMatch c x = true ↔ MatchesConst c x := by
  unfold constMatch MatchesConst
  by_cases hn : c = .none
  · subst hn
    simp [pyEq_none]
  · rw [if_neg hn]
    by_cases hs : pyEq c c = true
    · rw [if_neg (by simp [hs])]
      constructor
      · exact Or.inl
      · rintro (h | ⟨np, np', rfl, _⟩)
        · exact h
        · simp [pyEq_nan] at hs
    · rw [Bool.not_eq_true] at hs
      obtain ⟨np, rfl⟩ := (pyEq_self c).1 hs
      rw [if_pos (by simp [hs])]
      constructor
      · intro h
        obtain ⟨np', rfl⟩ := (pyEq_self x).1 (by simpa using h)
        exact Or.inr ⟨np, np', rfl, rfl⟩
      · rintro (h | ⟨_, np', _, rfl⟩)
        · simp [pyEq_nan] at h
        · simp [pyEq_nan]

/-- A constant matches exactly the values equal to it, `None` and nan matching themselves. -/
theorem C71_constant (c x : Val) :
    (∃ b, convert (.const c) x = .ok b) ∧ (convert (.const c) x = .ok true ↔ MatchesConst c x) := by
  refine ⟨⟨_, rfl⟩, ?_⟩
  rw [← constMatch_iff]
  simp [convert]

/-- A container matches exactly what one of its elements matches. -/
theorem C71_container (l : List Val) (x : Val) :
    (∃ b, convert (.list l) x = .ok b) ∧
    (convert (.list l) x = .ok true ↔ ∃ c ∈ l, MatchesConst c x) := by
  refine ⟨⟨_, rfl⟩, ?_⟩
  simp only [convert, listMatch, isIn, Except.ok.injEq]
  by_cases hall : l.all (fun v => pyEq v v) = true
  · rw [if_neg (by simp [hall])]
    rw [List.any_eq_true]
    constructor
    · rintro ⟨c, hc, h⟩
      exact ⟨c, hc, Or.inl h⟩
    · rintro ⟨c, hc, h | ⟨np, np', rfl, rfl⟩⟩
      · exact ⟨c, hc, h⟩
      · have := List.all_eq_true.1 hall _ hc
        simp [pyEq_nan] at this
  · rw [if_pos (by simpa using hall)]
    rw [List.all_eq_true] at hall
    push Not at hall
    obtain ⟨c, hc, hcc⟩ := hall
    rw [ne_eq, Bool.not_eq_true] at hcc
    obtain ⟨np, rfl⟩ := (pyEq_self c).1 hcc
    rw [Bool.or_eq_true, List.any_eq_true]
    constructor
    · rintro (h | ⟨c', hc', h⟩)
      · obtain ⟨np', rfl⟩ := (pyEq_self x).1 (by simpa using h)
        exact ⟨_, hc, Or.inr ⟨np, np', rfl, rfl⟩⟩
      · exact ⟨c', hc', Or.inl h⟩
    · rintro ⟨c', hc', h | ⟨_, np', rfl, rfl⟩⟩
      · exact Or.inr ⟨c', hc', h⟩
      · left; simp [pyEq_nan]

/-- A function is used as it is. -/
theorem C71_function (m : Val → Res Bool) (x : Val) : convert (.func m) x = m x := rfl

theorem iterCalls_nil (nan : Bool) (xs : List Val) (h : nan = false) :
    iterCalls nan [] xs = xs.map (fun _ => false) := by
  subst h
  induction xs with
  | nil => rfl
  | cons x xs ih =>
    show (iterCall false [] x).1 :: iterCalls false (iterCall false [] x).2 xs = _
    have : iterCall false [] x = (false, []) := rfl
    rw [this, ih]
    rfl

theorem iterAll_clean {l : List Val} (h : ∀ v ∈ l, pyEq v v = true) : iterAll l = (true, []) := by
  induction l with
  | nil => rfl
  | cons v l ih =>
    simp only [iterAll]
    rw [if_pos (h v (by simp)), ih (fun w hw => h w (by simp [hw]))]

/-- The documentation also allows an "iterable".  An iterator without nan is used up by the check for
nan values, before the first element is looked at: the matcher answers `False` to everything, also to
the values the iterator was to deliver. -/
theorem C71_iterator_violated {l : List Val} (h : ∀ v ∈ l, missing v = false ∨ v = .none) (xs : List Val) :
    oneShot l xs = xs.map (fun _ => false) := by
  have hc : ∀ v ∈ l, pyEq v v = true := by
    intro v hv
    rcases h v hv with h | rfl
    · unfold missing at h
      rw [Bool.or_eq_false_iff] at h
      simpa using h.2
    · rfl
  unfold oneShot
  rw [iterAll_clean hc]
  exact iterCalls_nil _ _ rfl

example : oneShot [.int false 1, .int false 2] [.int false 1, .int false 2] = [false, false] := by
  decide +kernel
example : convert (.list [.int false 1, .int false 2]) (.int false 1) = .ok true := by decide +kernel

/-! ## Any and all -/

variable {V : Type}

/-- `v` is an element of the data. -/
def Data.Elem : Data V → V → Prop
  | .seq l, v => v ∈ l
  | .obj o, v => ∃ i j, o.elem? i j = some v

/-- The data is a well-formed object or any sequence. -/
def Data.WF : Data V → Prop
  | .seq _ => True
  | .obj o => o.WF

theorem mem_flatten_elem {o : Obj V} {v : V} : v ∈ o.data.flatten ↔ ∃ i j, o.elem? i j = some v := by
  rw [List.mem_flatten]
  constructor
  · rintro ⟨r, hr, hv⟩
    obtain ⟨i, hi⟩ := List.mem_iff_getElem?.1 hr
    obtain ⟨j, hj⟩ := List.mem_iff_getElem?.1 hv
    exact ⟨i, j, by simp [Obj.elem?, hi, hj]⟩
  · rintro ⟨i, j, h⟩
    unfold Obj.elem? at h
    cases hr : o.data[i]? with
    | none => simp [hr] at h
    | some r =>
      simp [hr] at h
      exact ⟨r, List.mem_of_getElem? hr, List.mem_of_getElem? h⟩

theorem mem_column {o : Obj V} (h : o.WF) {v : V} :
    (∃ i, i < o.fts.len ∧ v ∈ o.vector .feature i) ↔ ∃ i j, o.elem? i j = some v := by
  constructor
  · rintro ⟨j, hj, hv⟩
    obtain ⟨r, hr, hv⟩ := List.mem_filterMap.1 hv
    obtain ⟨i, hi⟩ := List.mem_iff_getElem?.1 hr
    exact ⟨i, j, by simp [Obj.elem?, hi, hv]⟩
  · rintro ⟨i, j, he⟩
    unfold Obj.elem? at he
    cases hr : o.data[i]? with
    | none => simp [hr] at he
    | some r =>
      simp [hr] at he
      have hm := List.mem_of_getElem? hr
      have hj : j < r.length := (List.getElem?_eq_some_iff.1 he).1
      exact ⟨j, by rw [← h.cols r hm]; exact hj, List.mem_filterMap.2 ⟨r, hm, he⟩⟩

theorem evalAll_ok {m : V → Res Bool} {l : List V} {bs : List Bool} (h : evalAll m l = .ok bs) :
    (∀ v ∈ l, ∃ b ∈ bs, m v = .ok b) ∧ (∀ b ∈ bs, ∃ v ∈ l, m v = .ok b) := by
  induction l generalizing bs with
  | nil =>
    simp only [evalAll, Except.ok.injEq] at h
    subst h
    simp
  | cons v l ih =>
    simp only [evalAll, bind, Except.bind, pure, Except.pure] at h
    cases hm : m v with
    | error e => simp [hm] at h
    | ok b =>
      simp only [hm] at h
      cases hr : evalAll m l with
      | error e => simp [hr] at h
      | ok rs =>
        simp only [hr, Except.ok.injEq] at h
        subst h
        obtain ⟨h1, h2⟩ := ih hr
        refine ⟨?_, ?_⟩
        · intro w hw
          rcases List.mem_cons.1 hw with rfl | hw
          · exact ⟨b, by simp, hm⟩
          · obtain ⟨c, hc, he⟩ := h1 w hw
            exact ⟨c, by simp [hc], he⟩
        · intro c hc
          rcases List.mem_cons.1 hc with rfl | hc
          · exact ⟨v, by simp, hm⟩
          · obtain ⟨w, hw, he⟩ := h2 c hc
            exact ⟨w, by simp [hw], he⟩

theorem evalAll_error {m : V → Res Bool} {l : List V} {e : Err} (h : evalAll m l = .error e) :
    ∃ v ∈ l, m v = .error e := by
  induction l with
  | nil => simp [evalAll] at h
  | cons v l ih =>
    simp only [evalAll, bind, Except.bind, pure, Except.pure] at h
    cases hm : m v with
    | error e' =>
      simp only [hm, Except.error.injEq] at h
      exact ⟨v, by simp, by rw [hm, h]⟩
    | ok b =>
      simp only [hm] at h
      cases hr : evalAll m l with
      | error e' =>
        simp only [hr, Except.error.injEq] at h
        subst h
        obtain ⟨w, hw, he⟩ := ih hr
        exact ⟨w, by simp [hw], he⟩
      | ok rs => simp [hr] at h

/-- What `any` and `all` mean for a matcher that may raise: an early answer is witnessed by an element, the
other answer speaks of all elements, and an exception is one the matcher raised for an element. -/
def Answers (q : Quant) (m : V → Res Bool) (P : V → Prop) : Res Bool → Prop
  | .ok b => if b = q.early then ∃ v, P v ∧ m v = .ok b else ∀ v, P v → m v = .ok b
  | .error e => ∃ v, P v ∧ m v = .error e

theorem eval_answers {q : Quant} {m : V → Res Bool} {l : List V} {bs : List Bool}
    (h : evalAll m l = .ok bs) : Answers q m (· ∈ l) (.ok (q.eval bs)) := by
  obtain ⟨h1, h2⟩ := evalAll_ok h
  cases q with
  | any =>
    show if bs.any id = true then _ else _
    by_cases hb : bs.any id = true
    · rw [if_pos hb]
      obtain ⟨b, hb1, hb2⟩ := List.any_eq_true.1 hb
      obtain ⟨v, hv, he⟩ := h2 b hb1
      refine ⟨v, hv, ?_⟩
      show m v = .ok (bs.any id)
      rw [he, hb]
      simpa using hb2
    · rw [if_neg hb]
      intro v hv
      obtain ⟨b, hb1, he⟩ := h1 v hv
      show m v = .ok (bs.any id)
      rw [he]
      rw [List.any_eq_true] at hb
      push Not at hb
      have := hb b hb1
      have hf : bs.any id = false := by
        rw [List.any_eq_false]
        intro x hx
        exact hb x hx
      rw [hf]
      simpa using this
  | all =>
    show if bs.all id = false then _ else _
    by_cases hb : bs.all id = false
    · rw [if_pos hb]
      obtain ⟨b, hb1, hb2⟩ := List.all_eq_false.1 hb
      obtain ⟨v, hv, he⟩ := h2 b hb1
      refine ⟨v, hv, ?_⟩
      show m v = .ok (bs.all id)
      rw [he, hb]
      simpa using hb2
    · rw [if_neg hb]
      intro v hv
      obtain ⟨b, hb1, he⟩ := h1 v hv
      show m v = .ok (bs.all id)
      rw [Bool.not_eq_false] at hb
      rw [he, hb]
      have := List.all_eq_true.1 hb b hb1
      simpa using this

theorem scan_answers {q : Quant} {m : V → Res Bool} {o : Obj V} (is : List Nat) :
    Answers q m (fun v => ∃ i ∈ is, v ∈ o.vector .feature i) (scan q m o is) := by
  induction is with
  | nil =>
    show if (!q.early) = q.early then _ else _
    rw [if_neg (by cases q <;> decide)]
    rintro v ⟨i, hi, _⟩
    simp at hi
  | cons i is ih =>
    simp only [scan, bind, Except.bind]
    cases he : evalAll m (o.vector .feature i) with
    | error e =>
      obtain ⟨v, hv, hm⟩ := evalAll_error he
      exact ⟨v, ⟨i, by simp, hv⟩, hm⟩
    | ok bs =>
      have ha := eval_answers (q := q) he
      by_cases hs : q.stop (q.eval bs) = true
      · simp only [hs, if_true]
        have hq : q.eval bs = q.early := by
          revert hs
          generalize q.eval bs = b
          cases q <;> cases b <;> decide
        show if q.early = q.early then _ else _
        rw [if_pos rfl]
        have ha' : if q.eval bs = q.early then ∃ v, v ∈ o.vector .feature i ∧ m v = .ok (q.eval bs)
          else ∀ v, v ∈ o.vector .feature i → m v = .ok (q.eval bs) := ha
        rw [if_pos hq] at ha'
        obtain ⟨v, hv, hm⟩ := ha'
        exact ⟨v, ⟨i, by simp, hv⟩, by rw [hm, hq]⟩
      · simp only [hs]
        have hq : q.eval bs = !q.early := by
          revert hs
          generalize q.eval bs = b
          cases q <;> cases b <;> decide
        have hall : ∀ v, v ∈ o.vector .feature i → m v = .ok (!q.early) := by
          have ha' : if q.eval bs = q.early then ∃ v, v ∈ o.vector .feature i ∧ m v = .ok (q.eval bs)
            else ∀ v, v ∈ o.vector .feature i → m v = .ok (q.eval bs) := ha
          rw [if_neg (by rw [hq]; cases q <;> decide), hq] at ha'
          exact ha'
        show Answers q m _ (scan q m o is)
        cases hr : scan q m o is with
        | error e =>
          rw [hr] at ih
          obtain ⟨v, ⟨j, hj, hv⟩, hm⟩ := ih
          exact ⟨v, ⟨j, by simp [hj], hv⟩, hm⟩
        | ok b =>
          rw [hr] at ih
          have ih' : if b = q.early then ∃ v, (∃ i ∈ is, v ∈ o.vector .feature i) ∧ m v = .ok b
            else ∀ v, (∃ i ∈ is, v ∈ o.vector .feature i) → m v = .ok b := ih
          show if b = q.early then _ else _
          by_cases hb : b = q.early
          · rw [if_pos hb] at ih' ⊢
            obtain ⟨v, ⟨j, hj, hv⟩, hm⟩ := ih'
            exact ⟨v, ⟨j, by simp [hj], hv⟩, hm⟩
          · rw [if_neg hb] at ih' ⊢
            have hb' : b = !q.early := by revert hb; cases b <;> cases q <;> decide
            rintro v ⟨j, hj, hv⟩
            rcases List.mem_cons.1 hj with rfl | hj
            · rw [hb']; exact hall v hv
            · exact ih' v ⟨j, hj, hv⟩

theorem answers_congr {q : Quant} {m : V → Res Bool} {P Q : V → Prop} (h : ∀ v, P v ↔ Q v) {r : Res Bool}
    (ha : Answers q m P r) : Answers q m Q r := by
  have : P = Q := funext fun v => propext (h v)
  rwa [← this]

theorem iterData_elem {d : Data V} {l : List V} (h : iterData d = .ok l) (v : V) : v ∈ l ↔ d.Elem v := by
  cases d with
  | seq s =>
    simp only [iterData, Except.ok.injEq] at h
    subst h
    exact Iff.rfl
  | obj o =>
    simp only [iterData, iterObj] at h
    split at h
    · simp only [Except.ok.injEq] at h
      subst h
      exact mem_flatten_elem
    · simp at h

theorem direct_answers {q : Quant} {m : V → Res Bool} {d : Data V} {b : Bool} (h : direct q m d = .ok b) :
    Answers q m d.Elem (.ok b) := by
  simp only [direct, bind, Except.bind, pure, Except.pure] at h
  cases hi : iterData d with
  | error e => simp [hi] at h
  | ok l =>
    simp only [hi] at h
    cases he : evalAll m l with
    | error e => simp [he] at h
    | ok bs =>
      simp only [he, Except.ok.injEq] at h
      rw [← h]
      exact answers_congr (iterData_elem hi) (eval_answers he)

theorem direct_error {q : Quant} {m : V → Res Bool} {d : Data V} {e : Err} (h : direct q m d = .error e)
    (hn : isTypeError e = false) : ∃ v, d.Elem v ∧ m v = .error e := by
  simp only [direct, bind, Except.bind, pure, Except.pure] at h
  cases hi : iterData d with
  | error e' =>
    cases d with
    | seq s => simp [iterData] at hi
    | obj o =>
      simp only [hi, Except.error.injEq] at h
      simp only [iterData, iterObj] at hi
      split at hi
      · simp at hi
      · simp only [Except.error.injEq] at hi
        rw [← h, ← hi] at hn
        simp [isTypeError] at hn
  | ok l =>
    simp only [hi] at h
    cases he : evalAll m l with
    | error e' =>
      simp only [he, Except.error.injEq] at h
      subst h
      obtain ⟨v, hv, hm⟩ := evalAll_error he
      exact ⟨v, (iterData_elem hi v).1 hv, hm⟩
    | ok bs => simp [he] at h

/-- `any…` and `all…` of an object of any shape, for every matcher, also one that raises. -/
theorem C71_anyAll_object (q : Quant) (m : V → Res Bool) {o : Obj V} (h : o.WF) :
    Answers q m (fun v => ∃ i j, o.elem? i j = some v) (anyAll q m (.obj o)) := by
  unfold anyAll recover
  cases hd : direct q m (.obj o) with
  | ok b => exact direct_answers hd
  | error e =>
    dsimp only
    by_cases ht : isTypeError e = true
    · rw [if_pos ht]
      refine answers_congr (fun v => ?_) (scan_answers (q := q) (m := m) (o := o) (List.range o.fts.len))
      rw [← mem_column h]
      simp
    · rw [if_neg ht]
      obtain ⟨v, hv, hm⟩ := direct_error hd (by simpa using ht)
      exact ⟨v, hv, hm⟩

/-- For a matcher that does not raise, on any data: `any…` holds exactly if some element matches
(never on empty data). -/
theorem C71_any_iff (p : V → Bool) {d : Data V} (h : d.WF) :
    ∃ b, anyAll .any (fun v => .ok (p v)) d = .ok b ∧ (b = true ↔ ∃ v, d.Elem v ∧ p v = true) := by
  have key : Answers .any (fun v => .ok (p v)) d.Elem (anyAll .any (fun v => .ok (p v)) d) := by
    cases d with
    | obj o => exact C71_anyAll_object _ _ h
    | seq l =>
      unfold anyAll recover
      cases hd : direct .any (fun v => .ok (p v)) (.seq l) with
      | ok b => exact direct_answers hd
      | error e =>
        simp only [direct, iterData, bind, Except.bind, pure, Except.pure] at hd
        cases he : evalAll (fun v => Except.ok (p v)) l with
        | error e' =>
          obtain ⟨v, _, hm⟩ := evalAll_error he
          simp at hm
        | ok bs => simp [he] at hd
  cases hr : anyAll .any (fun v => .ok (p v)) d with
  | error e =>
    rw [hr] at key
    obtain ⟨v, _, hm⟩ := key
    simp at hm
  | ok b =>
    rw [hr] at key
    refine ⟨b, rfl, ?_⟩
    have key' : if b = true then ∃ v, d.Elem v ∧ (Except.ok (p v) : Res Bool) = .ok b
      else ∀ v, d.Elem v → (Except.ok (p v) : Res Bool) = .ok b := key
    by_cases hb : b = true
    · rw [if_pos hb] at key'
      obtain ⟨v, hv, hm⟩ := key'
      refine ⟨fun _ => ⟨v, hv, ?_⟩, fun _ => hb⟩
      simp only [Except.ok.injEq] at hm
      rw [hm, hb]
    · rw [if_neg hb] at key'
      refine ⟨fun h => absurd h hb, ?_⟩
      rintro ⟨v, hv, hp⟩
      have := key' v hv
      simp only [Except.ok.injEq] at this
      rw [← this, hp]

/-- `all…` holds exactly if every element matches (always on empty data). -/
theorem C71_all_iff (p : V → Bool) {d : Data V} (h : d.WF) :
    ∃ b, anyAll .all (fun v => .ok (p v)) d = .ok b ∧ (b = true ↔ ∀ v, d.Elem v → p v = true) := by
  have key : Answers .all (fun v => .ok (p v)) d.Elem (anyAll .all (fun v => .ok (p v)) d) := by
    cases d with
    | obj o => exact C71_anyAll_object _ _ h
    | seq l =>
      unfold anyAll recover
      cases hd : direct .all (fun v => .ok (p v)) (.seq l) with
      | ok b => exact direct_answers hd
      | error e =>
        simp only [direct, iterData, bind, Except.bind, pure, Except.pure] at hd
        cases he : evalAll (fun v => Except.ok (p v)) l with
        | error e' =>
          obtain ⟨v, _, hm⟩ := evalAll_error he
          simp at hm
        | ok bs => simp [he] at hd
  cases hr : anyAll .all (fun v => .ok (p v)) d with
  | error e =>
    rw [hr] at key
    obtain ⟨v, _, hm⟩ := key
    simp at hm
  | ok b =>
    rw [hr] at key
    refine ⟨b, rfl, ?_⟩
    have key' : if b = false then ∃ v, d.Elem v ∧ (Except.ok (p v) : Res Bool) = .ok b
      else ∀ v, d.Elem v → (Except.ok (p v) : Res Bool) = .ok b := key
    by_cases hb : b = false
    · rw [if_pos hb] at key'
      obtain ⟨v, hv, hm⟩ := key'
      simp only [Except.ok.injEq] at hm
      refine ⟨fun h => by simp [hb] at h, fun h => ?_⟩
      rw [← hm]
      exact h v hv
    · rw [if_neg hb] at key'
      rw [Bool.not_eq_false] at hb
      refine ⟨fun _ v hv => ?_, fun _ => hb⟩
      have := key' v hv
      simp only [Except.ok.injEq] at this
      rw [this, hb]

/-- `allX` is the negation of `anyNonX`: what the paired functions promise. -/
theorem C71_duality (p : V → Bool) {d : Data V} (h : d.WF) :
    anyAll .all (fun v => .ok (p v)) d = .ok true ↔ anyAll .any (fun v => .ok (!p v)) d = .ok false := by
  obtain ⟨b, hb, hb'⟩ := C71_all_iff p h
  obtain ⟨c, hc, hc'⟩ := C71_any_iff (fun v => !p v) h
  rw [hb, hc]
  simp only [Except.ok.injEq]
  rw [hb', ← Bool.not_eq_true, hc']
  push Not
  simp

/-- `anyValues`/`allValues` for a constant or a container. -/
theorem C71_anyValues_const (c : Val) {d : Data Val} (h : d.WF) :
    (anyValues (.const c) d = .ok true ↔ ∃ v, d.Elem v ∧ MatchesConst c v) ∧
    (allValues (.const c) d = .ok true ↔ ∀ v, d.Elem v → MatchesConst c v) := by
  obtain ⟨b, hb, hb'⟩ := C71_any_iff (constMatch c) h
  obtain ⟨a, ha, ha'⟩ := C71_all_iff (constMatch c) h
  constructor
  · show anyAll .any (fun v => .ok (constMatch c v)) d = .ok true ↔ _
    rw [hb, Except.ok.injEq, hb']
    simp only [constMatch_iff]
  · show anyAll .all (fun v => .ok (constMatch c v)) d = .ok true ↔ _
    rw [ha, Except.ok.injEq, ha']
    simp only [constMatch_iff]

/-- A matcher that raises a `TypeError` on a plain list: the user sees an `AttributeError` about
`features` instead. -/
theorem C71_list_typeError_violated (q : Quant) (m : V → Res Bool) {l : List V} {e : Err}
    (h : evalAll m l = .error e) (ht : isTypeError e = true) :
    anyAll q m (.seq l) = .error .AttributeError := by
  simp [anyAll, direct, iterData, bind, Except.bind, h, recover, ht, fallback]

def exObj : Obj Val := ⟨[[.int false 1, .str "a"], [.flt true .nan, .int true 0]], ⟨2, none⟩, ⟨2, none⟩⟩

theorem exObj_wf : exObj.WF where
  rows := rfl
  cols := by decide
  pts := by intro t ht; simp [exObj] at ht
  fts := by intro t ht; simp [exObj] at ht

example : anyOf missing (.obj exObj) = .ok true := by decide +kernel
example : allOf missing (.obj exObj) = .ok false := by decide +kernel
example : allOf nonMissing (.seq [.str "x", .int false 0]) = .ok true := by decide +kernel
example : anyAll .any (fun v => cmp0 Flt.pos v) (.obj exObj) = .ok true := by decide +kernel
example : anyAll .any (fun v => cmp0 Flt.neg v) (.obj exObj) = .error .TypeError := by decide +kernel
example : anyAll .any (fun v => cmp0 Flt.pos v) (.seq [.str "x"]) = .error .AttributeError := by decide +kernel

end Nimble.Match
