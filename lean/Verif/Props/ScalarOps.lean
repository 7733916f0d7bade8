import Verif.Model.ScalarOps
import Verif.Props.CalcElements
import Verif.Props.Match
import Verif.Props.Iterate
import Verif.Props.Binary
import Verif.Props.History

/-!
# C89 — arithmetic with a number, unary and logical operators
-/

namespace Nimble.Scalar
open Nimble.Match Nimble.LearnFill Nimble.Obj Nimble.Elements

/-! ## Specification -/

/-- The number an element stands for: booleans are 0 and 1, text may be read as a number; `None` is a missing number,
except in a List. -/
inductive IsNumber (P : Conv) (st : Store) : Val → Flt → Prop
  | bool (np b : Bool) : IsNumber P st (.bool np b) (.fin (if b then 1 else 0))
  | int (np : Bool) (i : Int) : IsNumber P st (.int np i) (.fin i)
  | flt (np : Bool) (f : Flt) : IsNumber P st (.flt np f) f
  | text (s : String) (f : Flt) (h : P.float s = some f) : IsNumber P st (.str s) f
  | missing (h : st ≠ .list) : IsNumber P st .none .nan

/-- A Python number. -/
inductive IsScalar : Val → Flt → Prop
  | bool (np b : Bool) : IsScalar (.bool np b) (.fin (if b then 1 else 0))
  | int (np : Bool) (i : Int) : IsScalar (.int np i) (.fin i)
  | flt (np : Bool) (f : Flt) : IsScalar (.flt np f) f

/-- The value of `x op y`, or of `y op x` for a reflected operator. -/
def between (A : Arith) (op : Op) (refl : Bool) (x y : Flt) : Except FpFlag Flt := if refl then A op y x else A op x y

/-- The operation divides by zero: by the number, or, reflected, by an element. -/
def DividesByZero (P : Conv) (st : Store) (op : Op) (refl : Bool) (y : Flt) (o : Obj Val) : Prop :=
  (op = .truediv ∨ op = .floordiv ∨ op = .mod) ∧
    ((refl = false ∧ y = .fin 0) ∨ (refl = true ∧ ∃ i j v, o.elem? i j = some v ∧ IsNumber P st v (.fin 0)))

/-- Booleans are added to or subtracted from booleans. -/
def BoolSum (op : Op) (c : Val) (o : Obj Val) : Prop :=
  (op = .add ∨ op = .sub) ∧ (∃ np b, c = .bool np b) ∧ ∀ i j v, o.elem? i j = some v → ∃ np b, v = .bool np b

/-- Every element stands for a number. -/
def Numeric (P : Conv) (st : Store) (o : Obj Val) : Prop := ∀ i j v, o.elem? i j = some v → ∃ x, IsNumber P st v x

/-- Some element raises the flag. -/
def Raises (A : Arith) (P : Conv) (st : Store) (op : Op) (refl : Bool) (y : Flt) (fl : FpFlag) (o : Obj Val) : Prop :=
  ∃ i j v x, o.elem? i j = some v ∧ IsNumber P st v x ∧ between A op refl x y = .error fl

/-- The names and the shape are those of `o`. -/
structure SameFrame (r o : Obj Val) : Prop where
  wf : r.WF
  plen : r.pts.len = o.pts.len
  flen : r.fts.len = o.fts.len
  pnames : r.pts.getNames = o.pts.getNames
  fnames : r.fts.getNames = o.fts.getNames

/-- Every element of `r` is the number of the element of `o`, combined with `y`. -/
def Applied (A : Arith) (P : Conv) (st : Store) (op : Op) (refl : Bool) (y : Flt) (o r : Obj Val) : Prop :=
  ∀ i j v, o.elem? i j = some v → ∃ x z np, IsNumber P st v x ∧ between A op refl x y = .ok z ∧
    r.elem? i j = some (.flt np z)

/-- True or false: `True`, `False`, 0 and 1. -/
def IsTruth (v : Val) (b : Bool) : Prop := canon v = .num (.fin (if b then 1 else 0))

/-! ## Conversion -/

theorem isNumber_iff {P : Conv} {st : Store} {v : Val} {x : Flt} : IsNumber P st v x ↔ toNumber P st v = some x := by
  constructor
  · intro h
    cases h with
    | text s f h => simpa [toNumber] using h
    | missing h => simp [toNumber, h]
    | _ => simp [toNumber, Val.num]
  · intro h
    cases v with
    | none =>
      simp only [toNumber] at h
      split at h
      · cases h
      · cases h; exact .missing (by assumption)
    | bool np b => simp only [toNumber, Val.num] at h; cases h; exact .bool np b
    | int np i => simp only [toNumber, Val.num] at h; cases h; exact .int np i
    | flt np f => simp only [toNumber, Val.num] at h; cases h; exact .flt np _
    | str s => exact .text s x h

theorem isNumber_unique {P : Conv} {st : Store} {v : Val} {x y : Flt} (h : IsNumber P st v x) (h' : IsNumber P st v y) :
    x = y := by
  rw [isNumber_iff] at h h'
  rw [h] at h'
  cases h'
  rfl

theorem isScalar_iff {v : Val} {x : Flt} : IsScalar v x ↔ v.num = some x := by
  constructor
  · intro h
    cases h <;> rfl
  · intro h
    cases v with
    | none => cases h
    | bool np b => cases h; exact .bool np b
    | int np i => cases h; exact .int np i
    | flt np f => cases h; exact .flt np _
    | str s => cases h

theorem looksNumeric_iff (v : Val) : looksNumeric v = true ↔ ∃ x, IsScalar v x := by
  simp only [isScalar_iff]
  cases v <;> simp [looksNumeric, Val.num]

/-- What a converted element is: the same number; it is a boolean only if it was one. -/
def Conv1 (P : Conv) (st : Store) (v w : Val) : Prop :=
  (∃ x, IsNumber P st v x ∧ IsScalar w x) ∧ (isBool w = true → w = v)

theorem mem_elem {o : Obj Val} (h : o.WF) {r : List Val} {v : Val} (hr : r ∈ o.data) (hv : v ∈ r) :
    ∃ i j, o.elem? i j = some v :=
  mem_flatten_elem.mp (List.mem_flatten.mpr ⟨r, hr, hv⟩)

theorem elem_mem {o : Obj Val} {i j : Nat} {v : Val} (hv : o.elem? i j = some v) : ∃ r ∈ o.data, v ∈ r := by
  obtain ⟨r, h1, h2⟩ := List.mem_flatten.mp (mem_flatten_elem.mpr ⟨i, j, hv⟩)
  exact ⟨r, h1, h2⟩

theorem floatOf_iff {P : Conv} {st : Store} {v w : Val} :
    floatOf P st v = some w ↔ ∃ x, toNumber P st v = some x ∧ w = .flt (decide (st ≠ .list)) x := by
  unfold floatOf
  cases toNumber P st v with
  | none => simp
  | some x => simp [eq_comm]

theorem mapM_none {A B : Type} {f : A → Option B} : ∀ {l : List A}, l.mapM f = none ↔ ∃ a ∈ l, f a = none
  | [] => by simp
  | a :: l => by
    rw [List.mapM_cons]
    cases hf : f a with
    | none => simp [hf]
    | some b =>
      cases hm : l.mapM f with
      | none => simp [hf, mapM_none.mp hm]
      | some bs =>
        have : ¬ ∃ a ∈ l, f a = none := by rw [← mapM_none, hm]; simp
        simp only [List.mem_cons, exists_eq_or_imp, hf]
        simpa using this

theorem mapM_some {A B : Type} {f : A → Option B} : ∀ {l : List A} {r : List B}, l.mapM f = some r ↔
    List.Forall₂ (fun a b => f a = some b) l r
  | [], r => by cases r <;> simp
  | a :: l, r => by
    rw [List.mapM_cons]
    cases hf : f a with
    | none =>
      constructor
      · intro h; cases h
      · intro h
        cases h with
        | cons h1 _ => rw [hf] at h1; cases h1
    | some b =>
      cases hm : l.mapM f with
      | none =>
        constructor
        · intro h; cases h
        · intro h
          cases h with
          | cons _ h2 => rw [← mapM_some, hm] at h2; cases h2
      | some bs =>
        constructor
        · intro h
          cases h
          exact .cons hf (mapM_some.mp hm)
        · intro h
          cases h with
          | cons h1 h2 =>
            rw [hf] at h1
            rw [← mapM_some, hm] at h2
            cases h1
            cases h2
            rfl

theorem convertType_rel {P : Conv} {pow : Bool} {v w : Val} (h : convertType P pow v = some w) : Conv1 P .list v w := by
  unfold convertType at h
  split at h
  · cases h
    rename_i hu
    refine ⟨?_, fun _ => rfl⟩
    cases v with
    | none => cases hu
    | bool np b => exact ⟨_, .bool np b, .bool np b⟩
    | int np i => exact ⟨_, .int np i, .int np i⟩
    | flt np f => exact ⟨_, .flt np f, .flt np f⟩
    | str s => cases hu
  · obtain ⟨x, h1, rfl⟩ := floatOf_iff.mp h
    exact ⟨⟨x, isNumber_iff.mpr h1, .flt _ _⟩, fun hb => by cases hb⟩

theorem floatOf_rel {P : Conv} {st : Store} {v w : Val} (h : floatOf P st v = some w) : Conv1 P st v w := by
  obtain ⟨x, h1, rfl⟩ := floatOf_iff.mp h
  exact ⟨⟨x, isNumber_iff.mpr h1, .flt _ _⟩, fun hb => by cases hb⟩

theorem usableDtype_rel {P : Conv} {st : Store} {pow : Bool} {v : Val} (h : usableDtype pow v = true) : Conv1 P st v v := by
  refine ⟨?_, fun _ => rfl⟩
  cases v with
  | none => cases h
  | bool np b => exact ⟨_, .bool np b, .bool np b⟩
  | int np i => exact ⟨_, .int np i, .int np i⟩
  | flt np f => exact ⟨_, .flt np f, .flt np f⟩
  | str s => cases h

theorem forall₂_self {A : Type} {R : A → A → Prop} : ∀ {l : List A}, (∀ a ∈ l, R a a) → List.Forall₂ R l l
  | [], _ => .nil
  | a :: l, h => .cons (h a (by simp)) (forall₂_self (fun b hb => h b (by simp [hb])))

theorem convertRows_rel {P : Conv} {st : Store} {pow : Bool} {rows rows' : List (List Val)}
    (h : convertRows P st pow rows = some rows') : List.Forall₂ (List.Forall₂ (Conv1 P st)) rows rows' := by
  unfold convertRows at h
  split at h
  · rename_i hst
    subst hst
    exact forall₂_imp' (fun a b hab => forall₂_imp' (fun v w (hvw : convertType P pow v = some w) => convertType_rel hvw)
      (mapM_some.mp hab)) (mapM_some.mp h)
  · split at h
    · rename_i ha
      cases h
      rw [List.all_eq_true] at ha
      refine forall₂_self (fun r hr => forall₂_self (fun v hv => ?_))
      have := ha r hr
      rw [List.all_eq_true] at this
      exact usableDtype_rel (this v hv)
    · exact forall₂_imp' (fun a b hab => forall₂_imp' (fun v w (hvw : floatOf P st v = some w) => floatOf_rel hvw)
        (mapM_some.mp hab)) (mapM_some.mp h)

theorem convertRows_none {P : Conv} {st : Store} {pow : Bool} {rows : List (List Val)} :
    convertRows P st pow rows = none ↔ ∃ r ∈ rows, ∃ v ∈ r, toNumber P st v = none := by
  have usable : ∀ v, usableDtype pow v = true → toNumber P st v ≠ none := by
    intro v hv
    cases v <;> simp_all [usableDtype, toNumber, Val.num]
  have hfl : ∀ st v, floatOf P st v = none ↔ toNumber P st v = none := by
    intro st v
    unfold floatOf
    simp
  have hct : ∀ v, convertType P pow v = none ↔ toNumber P .list v = none := by
    intro v
    unfold convertType
    split
    · rename_i hu
      cases v <;> simp_all [usableType, toNumber, Val.num]
    · exact hfl .list v
  unfold convertRows
  split
  · rename_i hst
    subst hst
    simp only [mapM_none, hct]
  · split
    · rename_i ha
      rw [List.all_eq_true] at ha
      constructor
      · intro h; cases h
      · rintro ⟨r, hr, v, hv, hn⟩
        have := ha r hr
        rw [List.all_eq_true] at this
        exact absurd hn (usable v (this v hv))
    · simp only [mapM_none, hfl]

theorem rel_elem {R : Val → Val → Prop} {rows rows' : List (List Val)} (h : List.Forall₂ (List.Forall₂ R) rows rows') :
    ∀ {i j : Nat}, (∀ v, rows[i]?.bind (fun r => r[j]?) = some v → ∃ w, rows'[i]?.bind (fun r => r[j]?) = some w ∧ R v w) ∧
      (∀ w, rows'[i]?.bind (fun r => r[j]?) = some w → ∃ v, rows[i]?.bind (fun r => r[j]?) = some v ∧ R v w) := by
  have one : ∀ {l l' : List Val}, List.Forall₂ R l l' → ∀ {j : Nat}, (∀ v, l[j]? = some v → ∃ w, l'[j]? = some w ∧ R v w) ∧
      (∀ w, l'[j]? = some w → ∃ v, l[j]? = some v ∧ R v w) := by
    intro l l' hl
    induction hl with
    | nil => intro j; simp
    | cons h1 _ ih =>
      intro j
      cases j with
      | zero => simp [h1]
      | succ j => simpa using ih
  induction h with
  | nil => intro i j; simp
  | cons h1 _ ih =>
    intro i j
    cases i with
    | zero => simpa using one h1
    | succ i => simpa using ih

/-- The converted object. -/
theorem convertObj_ok {P : Conv} {st : Store} {op : Op} {o o1 : Obj Val} (h : o.WF) (hc : convertObj P st op o = .ok o1) :
    o1.WF ∧ o1.pts = o.pts ∧ o1.fts = o.fts ∧ List.Forall₂ (List.Forall₂ (Conv1 P st)) o.data o1.data := by
  unfold convertObj at hc
  cases hr : convertRows P st (decide (op = .pow)) o.data with
  | none => rw [hr] at hc; cases hc
  | some rows =>
    rw [hr] at hc
    cases hc
    have hrel := convertRows_rel hr
    obtain ⟨l1, l2⟩ := forall₂_lens hrel h.cols
    exact ⟨⟨l1.trans h.rows, l2, h.pts, h.fts⟩, rfl, rfl, hrel⟩

theorem convertObj_error {P : Conv} {st : Store} {op : Op} {o : Obj Val} (h : o.WF) :
    (∀ e, convertObj P st op o = .error e → e = .ImproperObjectAction) ∧
    ((∃ o1, convertObj P st op o = .ok o1) ↔ Numeric P st o) := by
  have key : convertRows P st (decide (op = .pow)) o.data = none ↔ ¬ Numeric P st o := by
    rw [convertRows_none]
    unfold Numeric
    constructor
    · rintro ⟨r, hr, v, hv, hn⟩ hall
      obtain ⟨i, j, hij⟩ := mem_elem h hr hv
      obtain ⟨x, hx⟩ := hall i j v hij
      rw [isNumber_iff, hn] at hx
      cases hx
    · intro hall
      push Not at hall
      obtain ⟨i, j, v, hij, hx⟩ := hall
      obtain ⟨r, hr, hv⟩ := elem_mem hij
      refine ⟨r, hr, v, hv, ?_⟩
      cases hn : toNumber P st v with
      | none => rfl
      | some x => exact absurd (isNumber_iff.mpr hn) (hx x)
  unfold convertObj
  cases hr : convertRows P st (decide (op = .pow)) o.data with
  | none => simp [key.mp hr]
  | some rows =>
    have : Numeric P st o := by
      by_contra hn
      rw [key.mpr hn] at hr
      cases hr
    simp [this]

/-! ## The operation -/

theorem applyOp_eq {A : Arith} {op : Op} {refl : Bool} {c v : Val} {x y : Flt} (hv : IsScalar v x) (hc : IsScalar c y) :
    applyOp A op refl c v = between A op refl x y := by
  unfold applyOp between
  rw [isScalar_iff.mp hv, isScalar_iff.mp hc]

theorem raises_iff {fl : FpFlag} {l : List (List (Except FpFlag Flt))} :
    raises fl l = true ↔ ∃ r ∈ l, ∃ e ∈ r, e = .error fl := by
  unfold raises
  rw [List.any_eq_true]
  refine exists_congr fun r => and_congr_right fun _ => ?_
  rw [List.any_eq_true]
  refine exists_congr fun e => and_congr_right fun _ => ?_
  cases e <;> simp

theorem boolArith_ne {A : Arith} {op : Op} (h : op ≠ .add) : boolArith A op = A op := by
  cases op <;> first | rfl | exact absurd rfl h

theorem pyEq_zero_iff {v : Val} {x : Flt} (h : IsScalar v x) : pyEq v zeroVal = true ↔ x = .fin 0 := by
  cases h with
  | bool np b => cases b <;> simp [pyEq, zeroVal, numEq, Val.num, Flt.eq]
  | int np i => simp [pyEq, zeroVal, numEq, Val.num, Flt.eq]
  | flt np _ => cases x <;> simp [pyEq, zeroVal, numEq, Val.num, Flt.eq]


theorem divides_iff (op : Op) : op.divides = true ↔ (op = .truediv ∨ op = .floordiv ∨ op = .mod) := by
  cases op <;> simp [Op.divides]

section
variable {A : Arith} {P : Conv} {st : Store} {op : Op} {refl : Bool} {c : Val} {y : Flt} {o o1 : Obj Val}

/-- An element of the object and of the converted object. -/
theorem conv_elem (hr : List.Forall₂ (List.Forall₂ (Conv1 P st)) o.data o1.data) {i j : Nat} :
    (∀ v, o.elem? i j = some v → ∃ w, o1.elem? i j = some w ∧ Conv1 P st v w) ∧
    (∀ w, o1.elem? i j = some w → ∃ v, o.elem? i j = some v ∧ Conv1 P st v w) := rel_elem hr

theorem validate_ok (h1 : o1.WF) (hr : List.Forall₂ (List.Forall₂ (Conv1 P st)) o.data o1.data) (hc : IsScalar c y) :
    (DividesByZero P st op refl y o → validate op refl c o1 = .error .ZeroDivisionError) ∧
    (¬ DividesByZero P st op refl y o → validate op refl c o1 = .ok ()) := by
  have hl : looksNumeric c = true := (looksNumeric_iff c).mpr ⟨y, hc⟩
  have key : (op.divides = true ∧ zeroDivisor refl c o1 = true) ↔ DividesByZero P st op refl y o := by
    unfold DividesByZero
    rw [divides_iff]
    refine and_congr_right fun _ => ?_
    unfold zeroDivisor
    cases refl with
    | false => simp [pyEq_zero_iff hc]
    | true =>
      simp only [if_true, Bool.true_eq_false, false_and, false_or, true_and]
      rw [List.any_eq_true]
      constructor
      · rintro ⟨r, hr1, hr2⟩
        rw [List.any_eq_true] at hr2
        obtain ⟨w, hw, hz⟩ := hr2
        obtain ⟨i, j, hij⟩ := mem_elem h1 hr1 hw
        obtain ⟨v, hv, ⟨x, hx, hs⟩, _⟩ := (conv_elem hr).2 w hij
        rw [pyEq_zero_iff hs] at hz
        subst hz
        exact ⟨i, j, v, hv, hx⟩
      · rintro ⟨i, j, v, hv, hx⟩
        obtain ⟨w, hw, ⟨x, hx', hs⟩, _⟩ := (conv_elem hr).1 v hv
        obtain rfl := isNumber_unique hx hx'
        obtain ⟨r, hr1, hr2⟩ := elem_mem hw
        exact ⟨r, hr1, List.any_eq_true.mpr ⟨w, hr2, (pyEq_zero_iff hs).mpr rfl⟩⟩
  unfold validate
  rw [if_neg (by simp [hl])]
  constructor
  · intro hd
    rw [if_pos (key.mpr hd)]
  · intro hd
    rw [if_neg (fun h => hd (key.mp h))]

/-- The elements of the result before the flags are looked at. -/
theorem applyAll_mem (h1 : o1.WF) (hr : List.Forall₂ (List.Forall₂ (Conv1 P st)) o.data o1.data) (hc : IsScalar c y)
    (hb : ¬ (op = .add ∧ allBool c o1.data = true)) (fl : FpFlag) :
    raises fl (applyAll A op refl c o1.data) = true ↔ Raises A P st op refl y fl o := by
  have hA : ∀ w, applyOp (if allBool c o1.data then boolArith A else A) op refl c w = applyOp A op refl c w := by
    intro w
    split
    · rename_i hab
      have : boolArith A op = A op := boolArith_ne (fun hop => hb ⟨hop, hab⟩)
      unfold applyOp
      simp only [this]
    · rfl
  rw [raises_iff]
  unfold applyAll Raises
  constructor
  · rintro ⟨r, hr1, e, he, rfl⟩
    obtain ⟨r0, hr0, rfl⟩ := List.mem_map.mp hr1
    obtain ⟨w, hw, hwe⟩ := List.mem_map.mp he
    obtain ⟨i, j, hij⟩ := mem_elem h1 hr0 hw
    obtain ⟨v, hv, ⟨x, hx, hs⟩, _⟩ := (conv_elem hr).2 w hij
    rw [hA, applyOp_eq hs hc] at hwe
    exact ⟨i, j, v, x, hv, hx, hwe⟩
  · rintro ⟨i, j, v, x, hv, hx, he⟩
    obtain ⟨w, hw, ⟨x', hx', hs⟩, _⟩ := (conv_elem hr).1 v hv
    obtain rfl := isNumber_unique hx hx'
    obtain ⟨r, hr1, hr2⟩ := elem_mem hw
    exact ⟨_, List.mem_map.mpr ⟨r, hr1, rfl⟩, _, List.mem_map.mpr ⟨w, hr2, rfl⟩, by rw [hA, applyOp_eq hs hc, he]⟩

theorem allBool_conv (h1 : o1.WF) (hr : List.Forall₂ (List.Forall₂ (Conv1 P st)) o.data o1.data)
    (h : allBool c o1.data = true) (hop : op = .add ∨ op = .sub) : BoolSum op c o := by
  unfold allBool at h
  rw [Bool.and_eq_true, List.all_eq_true] at h
  have bool_of : ∀ v, isBool v = true → ∃ np b, v = .bool np b := by
    intro v hv
    cases v <;> simp_all [isBool]
  refine ⟨hop, bool_of c h.1, ?_⟩
  intro i j v hv
  obtain ⟨w, hw, _, hbw⟩ := (conv_elem hr).1 v hv
  obtain ⟨r, hr1, hr2⟩ := elem_mem hw
  have := h.2 r hr1
  rw [List.all_eq_true] at this
  have hb := this w hr2
  rw [hbw hb] at hb
  exact bool_of v hb

theorem finish_data {rows : List (List Val)} (h1 : o1.WF) (hl : rows.length = o1.pts.len) (hcl : ∀ r ∈ rows, r.length = o1.fts.len)
    (hv : validate op refl c o1 = .ok ()) (hcomp : compute A op refl c o1.data = .ok rows) :
    ∃ r, finish A op refl c o1 = .ok r ∧ SameFrame r o1 ∧ r.data = rows := by
  obtain ⟨p, p1, p2, p3, p4, _⟩ := setNames_opt_spec o1.pts.len none h1.pts rfl
  obtain ⟨f, f1, f2, f3, f4, _⟩ := setNames_opt_spec o1.fts.len none h1.fts rfl
  unfold finish
  simp only [hv, hcomp, p1, f1, bind, Except.bind, pure, Except.pure]
  exact ⟨_, rfl, ⟨⟨hl.trans p3.symm, fun r hr => (hcl r hr).trans f3.symm, p2, f2⟩, p3, f3, p4, f4⟩, rfl⟩

theorem finish_ok (h1 : o1.WF) (hr : List.Forall₂ (List.Forall₂ (Conv1 P st)) o.data o1.data) (hc : IsScalar c y)
    (hz : ¬ DividesByZero P st op refl y o) (hb : ¬ BoolSum op c o) (hd : ∀ fl, ¬ Raises A P st op refl y fl o) :
    ∃ r, finish A op refl c o1 = .ok r ∧ SameFrame r o1 ∧ Applied A P st op refl y o r := by
  have hnb : ¬ ((op = .add ∨ op = .sub) ∧ allBool c o1.data = true) := fun h => hb (allBool_conv h1 hr h.2 h.1)
  have hra := fun fl => applyAll_mem (A := A) (refl := refl) h1 hr hc (fun h => hnb ⟨.inl h.1, h.2⟩) fl
  have hn : ∀ fl, raises fl (applyAll A op refl c o1.data) = false := by
    intro fl
    rw [← Bool.not_eq_true, hra fl]
    exact hd fl
  have hcomp : compute A op refl c o1.data = .ok (values (applyAll A op refl c o1.data)) := by
    unfold compute
    rw [if_neg (fun h => hnb ⟨.inr h.1, h.2⟩), if_neg (by simp [hn]), if_neg (by simp [hn])]
  obtain ⟨r, r1, r2, r3⟩ := finish_data (refl := refl) (rows := values (applyAll A op refl c o1.data)) h1
    (by simp [values, applyAll, h1.rows])
    (by
      intro r hr
      simp only [values, applyAll, List.map_map, List.mem_map] at hr
      obtain ⟨r0, hr0, rfl⟩ := hr
      simp [h1.cols r0 hr0]) ((validate_ok h1 hr hc).2 hz) hcomp
  refine ⟨r, r1, r2, ?_⟩
  intro i j v hv
  obtain ⟨w, hw, ⟨x, hx, hs⟩, _⟩ := (conv_elem hr).1 v hv
  have hA : applyOp (if allBool c o1.data then boolArith A else A) op refl c w = between A op refl x y := by
    rw [← applyOp_eq (A := A) (op := op) (refl := refl) hs hc]
    split
    · rename_i hab
      have : boolArith A op = A op := boolArith_ne (fun hop => hnb ⟨.inl hop, hab⟩)
      unfold applyOp
      simp only [this]
    · rfl
  have hval : r.elem? i j = some (shown (between A op refl x y)) := by
    unfold Obj.elem? at hw ⊢
    rw [r3]
    simp only [values, applyAll, List.getElem?_map, Option.map_map]
    cases hrow : o1.data[i]? with
    | none => rw [hrow] at hw; cases hw
    | some row =>
      rw [hrow] at hw
      simp only [Option.bind_some] at hw
      simp only [Option.map_some, Option.bind_some, Function.comp, List.getElem?_map, hw, hA]
  cases hbt : between A op refl x y with
  | error fl => exact absurd ⟨i, j, v, x, hv, hx, hbt⟩ (hd fl)
  | ok z =>
    rw [hbt] at hval
    exact ⟨x, z, true, hx, hbt, hval⟩

end

/-! ## Theorems -/

/-- **C89 (a number).**  If every element stands for a number, nothing is divided by zero and numpy raises no flag,
`obj op c` and `c op obj` give an object with the shape and the names of `obj`, and each of its elements is the
element at the same place combined with the number.  (Booleans are not to be added to booleans.) -/
theorem C89_scalar {A : Arith} {P : Conv} {st : Store} {op : Op} {refl : Bool} {c : Val} {y : Flt} {o : Obj Val}
    (h : o.WF) (hn : Numeric P st o) (hc : IsScalar c y) (hz : ¬ DividesByZero P st op refl y o) (hb : ¬ BoolSum op c o)
    (hd : ∀ fl, ¬ Raises A P st op refl y fl o) :
    ∃ r, scalarOp A P st op refl c o = .ok r ∧ SameFrame r o ∧ Applied A P st op refl y o r := by
  obtain ⟨o1, ho1⟩ := (convertObj_error (op := op) h).2.mpr hn
  obtain ⟨w1, w2, w3, w4⟩ := convertObj_ok h ho1
  obtain ⟨r, r1, r2, r3⟩ := finish_ok (refl := refl) w1 w4 hc hz hb hd
  refine ⟨r, ?_, ⟨r2.wf, ?_, ?_, ?_, ?_⟩, r3⟩
  · unfold scalarOp
    simp only [ho1, bind, Except.bind, r1]
  · rw [r2.plen, w2]
  · rw [r2.flen, w3]
  · rw [r2.pnames, w2]
  · rw [r2.fnames, w3]

/-- **C89 (refusals).**  Text that is no number is refused with an `ImproperObjectAction`; otherwise a scalar that is
no number with an `InvalidArgumentType`; otherwise a division by zero with a `ZeroDivisionError`; otherwise a power
that divides by zero with a `ZeroDivisionError`, one that would be complex with an `ImproperObjectAction`. -/
theorem C89_refused {A : Arith} {P : Conv} {st : Store} {op : Op} {refl : Bool} {c : Val} {o : Obj Val} (h : o.WF) :
    (¬ Numeric P st o → scalarOp A P st op refl c o = .error .ImproperObjectAction) ∧
    (Numeric P st o → (∀ y, ¬ IsScalar c y) → scalarOp A P st op refl c o = .error .InvalidArgumentType) ∧
    (∀ y, Numeric P st o → IsScalar c y → DividesByZero P st op refl y o →
      scalarOp A P st op refl c o = .error .ZeroDivisionError) ∧
    (∀ y, Numeric P st o → IsScalar c y → op = .pow → Raises A P st op refl y .divide o →
      scalarOp A P st op refl c o = .error .ZeroDivisionError) ∧
    (∀ y, Numeric P st o → IsScalar c y → op = .pow → ¬ Raises A P st op refl y .divide o →
      Raises A P st op refl y .invalid o → scalarOp A P st op refl c o = .error .ImproperObjectAction) ∧
    (∀ y, Numeric P st o → IsScalar c y → op ≠ .pow → ¬ DividesByZero P st op refl y o → ¬ BoolSum op c o →
      (∃ fl, Raises A P st op refl y fl o) → scalarOp A P st op refl c o = .error .FloatingPointError) := by
  have conv : Numeric P st o → ∃ o1, convertObj P st op o = .ok o1 ∧ o1.WF ∧
      List.Forall₂ (List.Forall₂ (Conv1 P st)) o.data o1.data := by
    intro hn
    obtain ⟨o1, ho1⟩ := (convertObj_error (op := op) h).2.mpr hn
    obtain ⟨w1, _, _, w4⟩ := convertObj_ok h ho1
    exact ⟨o1, ho1, w1, w4⟩
  have flags : ∀ {y : Flt} {o1 : Obj Val}, o1.WF → List.Forall₂ (List.Forall₂ (Conv1 P st)) o.data o1.data → IsScalar c y →
      ¬ ((op = .add ∨ op = .sub) ∧ allBool c o1.data = true) →
      (Raises A P st op refl y .divide o → compute A op refl c o1.data = .error (diagnose op .divide)) ∧
      (¬ Raises A P st op refl y .divide o → Raises A P st op refl y .invalid o →
        compute A op refl c o1.data = .error (diagnose op .invalid)) := by
    intro y o1 w1 w4 hc hnb
    have hra := fun fl => applyAll_mem (A := A) (refl := refl) w1 w4 hc (fun h => hnb ⟨.inl h.1, h.2⟩) fl
    unfold compute
    rw [if_neg (fun h => hnb ⟨.inr h.1, h.2⟩)]
    constructor
    · intro hd
      rw [if_pos ((hra .divide).mpr hd)]
    · intro hd hi
      rw [if_neg (fun h => hd ((hra .divide).mp h)), if_pos ((hra .invalid).mpr hi)]
  have pow_nz : ∀ y, op = .pow → ¬ DividesByZero P st op refl y o := by
    rintro y hp ⟨hd, _⟩
    rw [hp] at hd
    rcases hd with hd | hd | hd <;> cases hd
  refine ⟨?_, ?_, ?_, ?_, ?_, ?_⟩
  · intro hn
    obtain ⟨e1, e2⟩ := convertObj_error (P := P) (st := st) (op := op) h
    cases hco : convertObj P st op o with
    | ok o1 => exact absurd (e2.mp ⟨o1, hco⟩) hn
    | error e =>
      rw [e1 e hco] at hco
      unfold scalarOp
      simp only [hco, bind, Except.bind]
  · intro hn hc
    obtain ⟨o1, ho1, _, _⟩ := conv hn
    have hl : looksNumeric c = false := by
      rw [← Bool.not_eq_true, looksNumeric_iff]
      rintro ⟨y, hy⟩
      exact hc y hy
    unfold scalarOp finish validate
    simp only [ho1, bind, Except.bind, hl, if_true]
  · intro y hn hc hd
    obtain ⟨o1, ho1, w1, w4⟩ := conv hn
    unfold scalarOp finish
    simp only [ho1, bind, Except.bind, (validate_ok w1 w4 hc).1 hd]
  · intro y hn hc hp hd
    obtain ⟨o1, ho1, w1, w4⟩ := conv hn
    unfold scalarOp finish
    simp only [ho1, bind, Except.bind, (validate_ok w1 w4 hc).2 (pow_nz y hp),
      (flags w1 w4 hc (by rw [hp]; simp)).1 hd]
    simp [diagnose, hp]
  · intro y hn hc hp hd hi
    obtain ⟨o1, ho1, w1, w4⟩ := conv hn
    unfold scalarOp finish
    simp only [ho1, bind, Except.bind, (validate_ok w1 w4 hc).2 (pow_nz y hp),
      (flags w1 w4 hc (by rw [hp]; simp)).2 hd hi]
    simp [diagnose, hp]
  · intro y hn hc hp hz hb hfl
    obtain ⟨o1, ho1, w1, w4⟩ := conv hn
    have hnb : ¬ ((op = .add ∨ op = .sub) ∧ allBool c o1.data = true) := fun h => hb (allBool_conv w1 w4 h.2 h.1)
    have hcomp : compute A op refl c o1.data = .error .FloatingPointError := by
      by_cases hd : Raises A P st op refl y .divide o
      · rw [(flags w1 w4 hc hnb).1 hd]
        simp [diagnose, hp]
      · obtain ⟨fl, hfl⟩ := hfl
        cases fl with
        | divide => exact absurd hfl hd
        | invalid =>
          rw [(flags w1 w4 hc hnb).2 hd hfl]
          simp [diagnose, hp]
    unfold scalarOp finish
    simp only [ho1, bind, Except.bind, (validate_ok w1 w4 hc).2 hz, hcomp]

/-- **C89 (in place).**  `obj op= c` makes the object what `obj op c` returns and is refused exactly when that is, with
the same exception; a refused one leaves shape, names and the number of every element as they were. -/
theorem C89_inplace {A : Arith} {P : Conv} {st : Store} {op : Op} {c : Val} {o : Obj Val} (h : o.WF) :
    (∀ r, scalarOp A P st op false c o = .ok r → scalarInplace A P st op c o = (r, .ok ())) ∧
    (∀ e, scalarOp A P st op false c o = .error e → ∃ o', scalarInplace A P st op c o = (o', .error e) ∧
      o'.WF ∧ o'.pts = o.pts ∧ o'.fts = o.fts ∧
      ∀ i j v, o.elem? i j = some v → ∃ w, o'.elem? i j = some w ∧
        (w = v ∨ ∃ x, IsNumber P st v x ∧ IsScalar w x)) := by
  unfold scalarOp scalarInplace
  cases hco : convertObj P st op o with
  | error e =>
    refine ⟨fun r hr => (by cases hr), ?_⟩
    intro e' he
    cases he
    exact ⟨o, rfl, h, rfl, rfl, fun i j v hv => ⟨v, hv, .inl rfl⟩⟩
  | ok o1 =>
    obtain ⟨w1, w2, w3, w4⟩ := convertObj_ok h hco
    simp only [bind, Except.bind]
    cases hf : finish A op false c o1 with
    | error e =>
      refine ⟨fun r hr => (by cases hr), ?_⟩
      intro e' he
      cases he
      refine ⟨o1, rfl, w1, w2, w3, ?_⟩
      intro i j v hv
      obtain ⟨w, hw, hx, _⟩ := (conv_elem w4).1 v hv
      exact ⟨w, hw, .inr hx⟩
    | ok r =>
      refine ⟨?_, fun e he => by cases he⟩
      intro r' hr
      cases hr
      rfl

/-- **C89 violated (refused in place).**  A refused `obj /= 0` has turned the text of the object into numbers. -/
theorem C89_inplace_text_violated {A : Arith} {P : Conv} (s : String) (x : Flt) (hs : P.float s = some x) :
    ∃ o', scalarInplace A P .list .truediv (.int false 0) ⟨[[.str s]], ⟨1, none⟩, ⟨1, none⟩⟩ = (o', .error .ZeroDivisionError) ∧
      o'.elem? 0 0 = some (.flt false x) := by
  refine ⟨⟨[[.flt false x]], ⟨1, none⟩, ⟨1, none⟩⟩, ?_, rfl⟩
  have : convertObj P .list .truediv ⟨[[.str s]], ⟨1, none⟩, ⟨1, none⟩⟩ = .ok ⟨[[.flt false x]], ⟨1, none⟩, ⟨1, none⟩⟩ := by
    simp [convertObj, convertRows, convertType, usableType, floatOf, toNumber, hs]
  unfold scalarInplace
  rw [this]
  rfl

/-- **C89 violated (booleans).**  True + True is true: 1, and not 2; and booleans cannot be subtracted. -/
theorem C89_bool_violated (A : Arith) (P : Conv) (st : Store) :
    (∃ r, scalarOp A P st .add false (.bool false true) ⟨[[.bool false true]], ⟨1, none⟩, ⟨1, none⟩⟩ = .ok r ∧
      r.elem? 0 0 = some (.flt true (.fin 1))) ∧
    scalarOp A P st .sub false (.bool false true) ⟨[[.bool false true]], ⟨1, none⟩, ⟨1, none⟩⟩ = .error .TypeError := by
  constructor
  · cases st <;> exact ⟨_, rfl, rfl⟩
  · cases st <;> rfl

/-! ## Unary operators -/

/-- **C89 (`+obj`, `-obj`).**  `+obj` is a copy; `-obj` has every number multiplied by -1, and all names. -/
theorem C89_neg {A : Arith} {P : Conv} {st : Store} {o : Obj Val} (h : o.WF) (hn : Numeric P st o)
    (hd : ∀ x fl, A .mul x (.fin (-1)) ≠ .error fl) :
    pos o = .ok o ∧ ∃ r, neg A P st o = .ok r ∧ SameFrame r o ∧ Applied A P st .mul false (.fin (-1)) o r := by
  refine ⟨rfl, ?_⟩
  obtain ⟨r, r1, r2, r3⟩ := C89_scalar (A := A) (P := P) (st := st) (op := .mul) (refl := false) (c := .int false (-1))
    (y := .fin (-1)) h hn (IsScalar.int false (-1))
    (by rintro ⟨h1 | h1 | h1, _⟩ <;> cases h1) (by rintro ⟨h1 | h1, _⟩ <;> cases h1)
    (by
      rintro fl ⟨i, j, v, x, _, _, hx⟩
      exact hd x fl hx)
  refine ⟨r, ?_, r2, r3⟩
  unfold neg
  rw [(C89_inplace h).1 r r1]

/-- The absolute value. -/
def absFlt : Flt → Flt
  | .fin q => .fin |q|
  | .inf => .inf
  | .ninf => .inf
  | .nan => .nan

/-- The element as a number; nan is missing. -/
def numCanon : Flt → Canon
  | .nan => .missing
  | f => .num f

theorem absVal_num {v : Val} {x : Flt} (h : IsScalar v x) :
    ∃ w, absVal v = .ok (some w) ∧ IsScalar w (absFlt x) ∧ w ≠ .none ∧ (∀ np f, v = .flt np f → ∃ np' f', w = .flt np' f') := by
  cases h with
  | bool np b =>
    refine ⟨_, rfl, ?_, by simp, by simp⟩
    have : absFlt (.fin (if b then 1 else 0)) = .fin (if b then 1 else 0) := by cases b <;> simp [absFlt]
    rw [this]
    exact .bool np b
  | int np i =>
    refine ⟨_, rfl, ?_, by simp, by simp⟩
    have : absFlt (.fin i) = .fin ((if i < 0 then -i else i : Int)) := by
      simp only [absFlt]
      split
      · rename_i hi
        rw [abs_of_neg (by exact_mod_cast hi)]
        push_cast
        rfl
      · rename_i hi
        rw [abs_of_nonneg (by exact_mod_cast Int.not_lt.mp hi)]
    rw [this]
    exact .int np _
  | flt np f =>
    cases x with
    | fin q =>
      refine ⟨_, rfl, ?_, by simp, fun _ _ _ => ⟨_, _, rfl⟩⟩
      have : absFlt (.fin q) = .fin (if q < 0 then -q else q) := by
        simp only [absFlt]
        split
        · rename_i hi
          rw [abs_of_neg hi]
        · rename_i hi
          rw [abs_of_nonneg (not_lt.mp hi)]
      rw [this]
      exact .flt np _
    | inf => exact ⟨_, rfl, .flt np _, by simp, fun _ _ _ => ⟨_, _, rfl⟩⟩
    | ninf => exact ⟨_, rfl, .flt np _, by simp, fun _ _ _ => ⟨_, _, rfl⟩⟩
    | nan => exact ⟨_, rfl, .flt np _, by simp, fun _ _ _ => ⟨_, _, rfl⟩⟩

theorem canon_num {v : Val} {x : Flt} (h : IsScalar v x) : canon v = numCanon x := by
  cases h with
  | bool np b => rfl
  | int np i => rfl
  | flt np _ => cases x <;> rfl

theorem abs_validated {v : Val} {x : Flt} (h : IsScalar v x) : ∃ w, (∀ i j, (Fn.one absVal).validated false false v i j = .ok w) ∧
    canon w = numCanon (absFlt x) ∧ (∀ s, w ≠ .str s) ∧ (∀ np f, v = .flt np f → ∃ np' f', w = .flt np' f') := by
  obtain ⟨w, w1, w2, w3, w4⟩ := absVal_num h
  unfold Fn.validated
  by_cases hz : (Fn.one absVal).preserve false = true ∧ pyEq v zeroVal = true
  · refine ⟨.flt false (.fin 0), fun i j => by rw [if_pos hz], ?_, by simp, fun _ _ _ => ⟨_, _, rfl⟩⟩
    rw [(pyEq_zero_iff h).mp hz.2]
    simp [absFlt, canon, numCanon]
  · refine ⟨w, fun i j => ?_, canon_num w2, ?_, w4⟩
    · rw [if_neg hz]
      simp [Fn.call, w1, bind, Except.bind, checkReturn]
    · intro s hs
      subst hs
      cases w2

/-- The values of the new object, for a calculation which is defined at every element. -/
theorem calcRows_each {g : Val → Nat → Nat → Res Val} {o : Obj Val} (h : o.WF) {R : Val → Val → Prop}
    (hg : ∀ r ∈ o.data, ∀ v ∈ r, ∃ w, (∀ i j, g v i j = .ok w) ∧ R v w) :
    ∃ rows, calcRows g o (List.range o.pts.len) (List.range o.fts.len) = .ok rows ∧
      List.Forall₂ (List.Forall₂ R) o.data rows := by
  classical
  let w : Val → Val := fun v => if hv : ∃ w, (∀ i j, g v i j = .ok w) ∧ R v w then hv.choose else .none
  have hw : ∀ r ∈ o.data, ∀ v ∈ r, (∀ i j, g v i j = .ok (w v)) ∧ R v (w v) := by
    intro r hr v hv
    have := hg r hr v hv
    simp only [w, dif_pos this]
    exact this.choose_spec
  refine ⟨o.data.map (fun r => r.map w), ?_, ?_⟩
  · rw [calcRows_iff, List.forall₂_iff_get]
    refine ⟨by simp [h.rows], ?_⟩
    intro i h1 h2
    simp only [List.length_map] at h2
    rw [List.forall₂_iff_get]
    refine ⟨by simp [h.cols _ (List.getElem_mem h2)], ?_⟩
    intro j h3 h4
    simp only [List.get_eq_getElem, List.getElem_map, List.length_map] at h4 ⊢
    refine ⟨o.data[i][j], ?_, ?_⟩
    · simp [Obj.elem?, h2, h4]
    · simp only [List.getElem_range]
      exact (hw _ (List.getElem_mem h2) _ (List.getElem_mem h4)).1 i j
  · rw [List.forall₂_map_right_iff]
    refine forall₂_self (fun r hr => ?_)
    rw [List.forall₂_map_right_iff]
    exact forall₂_self (fun v hv => (hw r hr v hv).2)

theorem asArray_spec {st : Store} {o : Obj Val} (h : o.WF) (hn : ∀ i j v, o.elem? i j = some v → ∃ x, IsScalar v x) :
    (asArray st o).WF ∧ (asArray st o).pts = o.pts ∧ (asArray st o).fts = o.fts ∧
    List.Forall₂ (List.Forall₂ (fun v w => (∀ x, IsScalar v x → IsScalar w x) ∧ (st ≠ .frame → ∃ f, w = .flt true f)))
      o.data (asArray st o).data := by
  unfold asArray
  split
  · rename_i hc
    refine ⟨⟨by simp [h.rows], ?_, h.pts, h.fts⟩, rfl, rfl, ?_⟩
    · intro r hr
      obtain ⟨r0, hr0, rfl⟩ := List.mem_map.mp hr
      simp [h.cols r0 hr0]
    · rw [List.forall₂_map_right_iff]
      refine forall₂_self (fun r hr => ?_)
      rw [List.forall₂_map_right_iff]
      refine forall₂_self (fun v hv => ?_)
      obtain ⟨i, j, hij⟩ := mem_elem h hr hv
      obtain ⟨x, hx⟩ := hn i j v hij
      have : toFloat v = .flt true x := by simp [toFloat, isScalar_iff.mp hx]
      rw [this]
      refine ⟨fun y hy => ?_, fun _ => ⟨x, rfl⟩⟩
      rw [isScalar_iff] at hx hy
      rw [hx] at hy
      cases hy
      exact .flt _ _
  · rename_i hc
    refine ⟨h, rfl, rfl, forall₂_self (fun r hr => forall₂_self (fun v hv => ⟨fun _ hx => hx, fun hf => ?_⟩))⟩
    refine absurd ⟨hf, ?_⟩ hc
    rw [List.all_eq_true]
    intro r hr
    rw [List.all_eq_true]
    intro v hv
    obtain ⟨i, j, hij⟩ := mem_elem h hr hv
    exact (looksNumeric_iff v).mpr (hn i j v hij)

theorem kind_array {st : Store} (h : st.kind = .array) : st ≠ .frame := by
  rintro rfl
  cases h

/-- The absolute values, before the names are set. -/
theorem abs_calc {P : Conv} {st : Store} {o : Obj Val} (h : o.WF) (hn : ∀ i j v, o.elem? i j = some v → ∃ x, IsScalar v x) :
    ∃ r, calculateOnElements P st.kind (.one absVal) false false .all .all (asArray st o) = .ok r ∧ r.WF ∧
      r.pts.len = o.pts.len ∧ r.fts.len = o.fts.len ∧ r.fts.getNames = List.replicate o.fts.len none ∧
      ∀ i j v x, o.elem? i j = some v → IsScalar v x → (r.elem? i j).map canon = some (numCanon (absFlt x)) := by
  obtain ⟨a1, a2, a3, a4⟩ := asArray_spec (st := st) h hn
  have hsel : ∀ a : AxisSt, Elements.Selects a Limit.all (List.range a.len) := fun a => .inl ⟨rfl, rfl⟩
  obtain ⟨l, l1, l2, l3, _⟩ := limits_selects a1 (hsel _) (hsel _) st.kind true
  have hn' : ∀ r ∈ (asArray st o).data, ∀ v ∈ r, ∃ x, IsScalar v x ∧ (st ≠ .frame → ∃ f, v = .flt true f) := by
    intro r hr w hw
    obtain ⟨i, j, hij⟩ := mem_elem a1 hr hw
    obtain ⟨v, hv, hvw, hf⟩ := (rel_elem a4).2 w hij
    obtain ⟨x, hx⟩ := hn i j v hv
    exact ⟨x, hvw x hx, hf⟩
  obtain ⟨rows, hrows, hrel⟩ := calcRows_each (g := (Fn.one absVal).validated false false)
    (R := fun v w => (∀ x, IsScalar v x → canon w = numCanon (absFlt x)) ∧ (∀ s, w ≠ .str s) ∧
      (st ≠ .frame → ∃ np f, w = .flt np f)) a1 (by
    intro r hr v hv
    obtain ⟨x, hx, hf⟩ := hn' r hr v hv
    obtain ⟨w, w1, w2, w3, w4⟩ := abs_validated hx
    refine ⟨w, w1, ?_, w3, ?_⟩
    · intro x' hx'
      rw [isScalar_iff] at hx hx'
      rw [hx] at hx'
      cases hx'
      exact w2
    · intro hst
      obtain ⟨f, rfl⟩ := hf hst
      exact w4 true f rfl)
  obtain ⟨s1, s2⟩ := forall₂_lens hrel a1.cols
  have hnt : ∀ r ∈ rows, ∀ w ∈ r, (∀ s, w ≠ .str s) ∧ (st ≠ .frame → ∃ np f, w = .flt np f) := by
    intro r hr w hw
    obtain ⟨r0, hr0, h1⟩ := forall₂_mem_right hrel r hr
    obtain ⟨v, hv, h2⟩ := forall₂_mem_right h1 w hw
    exact h2.2
  obtain ⟨r, r1, r2⟩ := madeObject_shows (P := P) (kind := st.kind) (oneArg := true) (rows := rows) (nP := o.pts.len)
    (nF := o.fts.len) (by rw [s1, a1.rows, a2]) (fun r hr => by rw [s2 r hr, a3])
    (fun hk => asFirst_plain P s2 (.inr (.inr (.inl (fun r hr w hw => (hnt r hr w hw).2 (kind_array hk.1))))))
    (fun _ => noText_plain s2 (fun r hr w hw => (hnt r hr w hw).1))
  refine ⟨r, ?_, r2.wf, r2.plen, r2.flen, r2.fnames, ?_⟩
  · unfold calculateOnElements calcBackend
    simp only [Fn.oneArg, l1, bind, Except.bind, l2, l3, hrows, List.length_range]
    rw [a2, a3]
    exact r1
  · intro i j v x hv hx
    rw [r2.elems]
    obtain ⟨v', hv', hvv, _⟩ := (rel_elem a4).1 v hv
    obtain ⟨w, hw, hc, _⟩ := (rel_elem hrel).1 v' hv'
    rw [hw]
    simp [hc x (hvv x hx)]

/-- **C89 (`abs(obj)`).**  For an object of numbers whose features have names, or whose points have none, `abs(obj)`
has the absolute value of each element and the names of `obj`. -/
theorem C89_abs_partial {P : Conv} {st : Store} {o : Obj Val} (h : o.WF)
    (hn : ∀ i j v, o.elem? i j = some v → ∃ x, IsScalar v x) (hf : o.fts.tbl ≠ none ∨ o.pts.tbl = none) :
    ∃ r, Scalar.abs P st o = .ok r ∧ SameFrame r o ∧
      ∀ i j v x, o.elem? i j = some v → IsScalar v x → (r.elem? i j).map canon = some (numCanon (absFlt x)) := by
  obtain ⟨r, r1, r2, r3, r4, r5, r6⟩ := abs_calc (P := P) (st := st) h hn
  obtain ⟨p, p1, p2, p3, p4, _⟩ := setNames_opt_spec o.pts.len r.pts.tbl h.pts rfl
  obtain ⟨f, f1, f2, f3, f4, _⟩ := setNames_opt_spec o.fts.len r.fts.tbl h.fts rfl
  have ep : r.pts = ⟨o.pts.len, r.pts.tbl⟩ := by rw [← r3]
  have ef : r.fts = ⟨o.fts.len, r.fts.tbl⟩ := by rw [← r4]
  unfold Scalar.abs
  rw [← ep] at p1
  rw [← ef] at f1
  simp only [r1, p1, bind, Except.bind, pure, Except.pure]
  cases ht : o.fts.tbl with
  | some t =>
    simp only [AxisSt.getNamesNoGen, ht, Option.map_some, asAssign] at f1
    simp only [AxisSt.getNamesNoGen, ht, Option.map_some, f1]
    exact ⟨_, rfl, ⟨⟨by rw [r2.rows, r3]; exact p3.symm, by intro x hx; rw [r2.cols x hx, r4]; exact f3.symm, p2, f2⟩, p3, f3, p4, f4⟩, r6⟩
  | none =>
    have hpn : o.pts.tbl = none := by
      rcases hf with hf | hf
      · exact absurd ht hf
      · exact hf
    simp only [AxisSt.getNamesNoGen, ht, Option.map_none]
    refine ⟨_, rfl, ⟨⟨?_, r2.cols, none_ok _, r2.fts⟩, p3, r4, ?_, ?_⟩, r6⟩
    · rw [r2.rows, r3]
      exact p3.symm
    · simp [AxisSt.getNames, hpn, p3]
    · rw [r5]
      simp [AxisSt.getNames, ht]

/-- **C89 violated (`abs(obj)`).**  If the features have no names, `abs(obj)` has no names of points either. -/
theorem C89_abs_violated {P : Conv} {st : Store} {o : Obj Val} (h : o.WF)
    (hn : ∀ i j v, o.elem? i j = some v → ∃ x, IsScalar v x) (hf : o.fts.tbl = none) :
    ∃ r, Scalar.abs P st o = .ok r ∧ ∀ n ∈ r.pts.getNames, n = none := by
  obtain ⟨r, r1, r2, r3, r4, r5, r6⟩ := abs_calc (P := P) (st := st) h hn
  obtain ⟨p, p1, p2, p3, p4, _⟩ := setNames_opt_spec o.pts.len r.pts.tbl h.pts rfl
  have ep : r.pts = ⟨o.pts.len, r.pts.tbl⟩ := by rw [← r3]
  rw [← ep] at p1
  unfold Scalar.abs
  simp only [r1, p1, bind, Except.bind, pure, Except.pure]
  simp only [AxisSt.getNamesNoGen, hf, Option.map_none]
  refine ⟨_, rfl, ?_⟩
  exact default_of_none (a := ⟨p.len, none⟩) rfl

/-! ## Logical operators -/

theorem isTruth_cases (v : Val) : (∃ b, IsTruth v b) ↔ ∃ c ∈ ([.bool false true, .bool false false, .int false 0, .int false 1] : List Val),
    MatchesConst c v := by
  have h1 := pyEq_true v
  have h0 := pyEq_false v
  have e1 : pyEq v (.int false 1) = pyEq v (.bool false true) := by cases v <;> simp [pyEq, Val.num]
  have e0 : pyEq v (.int false 0) = pyEq v (.bool false false) := by cases v <;> simp [pyEq, Val.num]
  unfold IsTruth
  constructor
  · rintro ⟨b, hb⟩
    cases b with
    | true => exact ⟨_, by simp, .inl (h1.mpr (by simpa using hb))⟩
    | false => exact ⟨.bool false false, by simp, .inl (h0.mpr (by simpa using hb))⟩
  · rintro ⟨c, hc, hm⟩
    have hm' : pyEq v c = true := by
      rcases hm with hm | ⟨np, np', rfl, _⟩
      · exact hm
      · simp at hc
    simp only [List.mem_cons, List.not_mem_nil, or_false] at hc
    rcases hc with rfl | rfl | rfl | rfl
    · exact ⟨true, by simpa using h1.mp hm'⟩
    · exact ⟨false, by simpa using h0.mp hm'⟩
    · exact ⟨false, by rw [e0] at hm'; simpa using h0.mp hm'⟩
    · exact ⟨true, by rw [e1] at hm'; simpa using h1.mp hm'⟩

theorem isTruth_truth {v : Val} {b : Bool} (h : IsTruth v b) : truth v = b := by
  cases b with
  | true => exact truth_one (by simpa [IsTruth] using h)
  | false => exact truth_zero (by simpa [IsTruth] using h)

/-- Every element is true or false. -/
def Logical (o : Obj Val) : Prop := ∀ i j v, o.elem? i j = some v → ∃ b, IsTruth v b

theorem allValues_logical {o : Obj Val} (h : o.WF) : ∃ b, allValues logicalValues (.obj o) = .ok b ∧ (b = true ↔ Logical o) := by
  obtain ⟨b, b1, b2⟩ := C71_all_iff (fun v => listMatch [.bool false true, .bool false false, .int false 0, .int false 1] v)
    (d := .obj o) h
  refine ⟨b, b1, b2.trans ?_⟩
  have key : ∀ v, listMatch [.bool false true, .bool false false, .int false 0, .int false 1] v = true ↔ ∃ b, IsTruth v b := by
    intro v
    rw [isTruth_cases, ← (C71_container _ v).2]
    simp [Match.convert]
  simp only [key]
  constructor
  · intro hall i j v hv
    exact hall v ⟨i, j, hv⟩
  · rintro hall v ⟨i, j, hv⟩
    exact hall i j v hv

/-- `r` has the shape and the names of `o` and the truth value of each element, changed by `g`. -/
def TruthOf (g : Bool → Bool) (o r : Obj Val) : Prop :=
  ∀ i j v b, o.elem? i j = some v → IsTruth v b → ∃ w, r.elem? i j = some w ∧ IsTruth w (g b)

theorem matchNamed_spec {P : Conv} {st : Store} {f : Val → Bool} {g : Bool → Bool} {o src : Obj Val} (h : o.WF) (hs : src.WF)
    (hp : o.pts.len = src.pts.len) (hf : o.fts.len = src.fts.len) (hl : Logical o)
    (hg : ∀ v b, IsTruth v b → f v = g b) :
    ∃ r, matchNamed P st f o src = .ok r ∧ SameFrame r src ∧ TruthOf g o r := by
  have hsel : ∀ a : AxisSt, Elements.Selects a Limit.all (List.range a.len) := fun a => .inl ⟨rfl, rfl⟩
  have hrows : List.Forall₂ (fun i row => List.Forall₂ (fun j b => ∃ v, o.elem? i j = some v ∧
      (Matcher.one (fun v => .ok (.bool false (f v)))).Says v i j b) (List.range o.fts.len) row)
      (List.range o.pts.len) (o.data.map (fun r => r.map f)) := by
    rw [List.forall₂_iff_get]
    refine ⟨by simp [h.rows], ?_⟩
    intro i h1 h2
    simp only [List.length_map] at h2
    rw [List.forall₂_iff_get]
    refine ⟨by simp [h.cols _ (List.getElem_mem h2)], ?_⟩
    intro j h3 h4
    simp only [List.get_eq_getElem, List.getElem_map, List.length_map] at h4 ⊢
    refine ⟨o.data[i][j], by simp [Obj.elem?, h2, h4], ?_⟩
    exact ⟨.bool false (f o.data[i][j]), rfl, rfl⟩
  obtain ⟨r, r1, r2, r3, r4, _, _, r7⟩ := C86_matching (P := P) (kind := st.kind) (m := .one (fun v => .ok (.bool false (f v))))
    h (by intro _ hf; cases hf) (hsel _) (hsel _) (.inr List.nodup_range) (.inr List.nodup_range) hrows
  rw [List.length_range] at r3 r4
  obtain ⟨p, p1, p2, p3, p4, _⟩ := setNames_opt_spec r.pts.len r.pts.tbl hs.pts (by rw [r3, hp])
  obtain ⟨q, q1, q2, q3, q4, _⟩ := setNames_opt_spec r.fts.len r.fts.tbl hs.fts (by rw [r4, hf])
  unfold matchNamed
  simp only [r1, bind, Except.bind, pure, Except.pure]
  rw [show r.pts.setNames (asAssign src.pts.getNamesNoGen) = .ok p from p1]
  dsimp only
  rw [show r.fts.setNames (asAssign src.fts.getNamesNoGen) = .ok q from q1]
  refine ⟨_, rfl, ⟨⟨r2.rows.trans p3.symm, fun x hx => (r2.cols x hx).trans q3.symm, p2, q2⟩,
    by simp only [p3, r3, hp], by simp only [q3, r4, hf], p4, q4⟩, ?_⟩
  intro i j v b hv hb
  have := r7 i j
  have he : ((o.data.map (fun r => r.map f))[i]?.bind (fun row => row[j]?)) = some (g b) := by
    rw [List.getElem?_map]
    unfold Obj.elem? at hv
    cases hrow : o.data[i]? with
    | none => rw [hrow] at hv; cases hv
    | some row =>
      rw [hrow] at hv
      simp only [Option.bind_some] at hv
      simp [hv, hg v b hb]
  rw [he] at this
  show ∃ w, (r.data[i]?).bind (fun row => row[j]?) = some w ∧ _
  cases hw : r.elem? i j with
  | none => rw [hw] at this; cases this
  | some w =>
    rw [hw] at this
    exact ⟨w, hw, by simpa [IsTruth] using this⟩

theorem sameFrame_refl {o : Obj Val} (h : o.WF) : SameFrame o o := ⟨h, rfl, rfl, rfl, rfl⟩

theorem logicalConv_spec {P : Conv} {st : Store} {o : Obj Val} (h : o.WF) :
    (Logical o → ∃ r, logicalConv P st o = .ok r ∧ SameFrame r o ∧ TruthOf id o r) ∧
    (¬ Logical o → logicalConv P st o = .error .ImproperObjectAction) := by
  obtain ⟨b, b1, b2⟩ := allValues_logical h
  unfold logicalConv
  by_cases hb : isBooleanData st o = true
  · rw [if_pos hb]
    have hlog : Logical o := by
      intro i j v hv
      obtain ⟨r, hr, hvr⟩ := elem_mem hv
      unfold isBooleanData at hb
      rw [Bool.and_eq_true, List.all_eq_true] at hb
      have := hb.2 r hr
      rw [List.all_eq_true] at this
      have := this v hvr
      cases v with
      | bool np b => exact ⟨b, rfl⟩
      | _ => cases this
    exact ⟨fun _ => ⟨o, rfl, sameFrame_refl h, fun i j v b hv hb => ⟨v, hv, hb⟩⟩, fun hn => absurd hlog hn⟩
  · rw [if_neg hb]
    simp only [b1, bind, Except.bind]
    constructor
    · intro hl
      rw [b2.mpr hl]
      simp only [logicalCheck, if_true]
      exact matchNamed_spec h h rfl rfl hl (fun v b hb => isTruth_truth hb)
    · intro hl
      have : b = false := by rw [← Bool.not_eq_true, b2]; exact hl
      rw [this]
      rfl

/-- **C89 (`&`, `|`, `^`).**  The logical operators accept two objects of the same shape, not empty, with elements
`True`, `False`, 0 and 1 only, whose names are allowed in a binary operation (C15), and no others.  Each element of
the result is the operation on the two elements at its place; the names are those of a binary operation. -/
theorem C89_logical {P : Conv} {st st' : Store} {op : LOp} {o other : Obj Val} (h : o.WF) (ho : other.WF) :
    ((∃ r, logical P st st' op o other = .ok r) ↔ o.pts.len = other.pts.len ∧ o.fts.len = other.fts.len ∧ 0 < o.pts.len ∧
      0 < o.fts.len ∧ Logical o ∧ Logical other ∧ BinaryNamesOk false o other) ∧
    (∀ r, logical P st st' op o other = .ok r →
      r.WF ∧ r.pts.len = o.pts.len ∧ r.fts.len = o.fts.len ∧
      (∀ i j v w a b, o.elem? i j = some v → other.elem? i j = some w → IsTruth v a → IsTruth w b →
        ∃ u, r.elem? i j = some u ∧
          IsTruth u (match op with | .and => a && b | .or => a || b | .xor => decide (a ≠ b))) ∧
      (NamesAgree o.pts.getNames other.pts.getNames → MergedNames r.pts.getNames o.pts.getNames other.pts.getNames) ∧
      (NamesAgree o.fts.getNames other.fts.getNames → MergedNames r.fts.getNames o.fts.getNames other.fts.getNames) ∧
      (¬ NamesAgree o.pts.getNames other.pts.getNames → ∀ n ∈ r.pts.getNames, n = none) ∧
      (¬ NamesAgree o.fts.getNames other.fts.getNames → ∀ n ∈ r.fts.getNames, n = none)) := by
  have size : sizeValidation o other = .ok () ↔
      (o.pts.len = other.pts.len ∧ o.fts.len = other.fts.len ∧ 0 < o.pts.len ∧ 0 < o.fts.len) := by
    unfold sizeValidation
    by_cases c1 : o.pts.len = other.pts.len <;> by_cases c2 : o.fts.len = other.fts.len <;>
      by_cases c3 : o.pts.len = 0 ∨ o.fts.len = 0 <;> simp [c1, c2, c3] <;> omega
  obtain ⟨l1, l2⟩ := logicalConv_spec (P := P) (st := st) h
  obtain ⟨m1, m2⟩ := logicalConv_spec (P := P) (st := st') ho
  unfold logical
  cases hs : sizeValidation o other with
  | error e =>
    simp only [bind, Except.bind]
    constructor
    · constructor
      · rintro ⟨r, hr⟩; cases hr
      · rintro ⟨h1, h2, h3, h4, _⟩
        rw [size.mpr ⟨h1, h2, h3, h4⟩] at hs
        cases hs
    · intro r hr; cases hr
  | ok u =>
    obtain ⟨s1, s2, s3, s4⟩ := size.mp hs
    simp only [bind, Except.bind]
    by_cases hl : Logical o
    swap
    · rw [l2 hl]
      constructor
      · constructor
        · rintro ⟨r, hr⟩; cases hr
        · rintro ⟨_, _, _, _, h5, _⟩
          exact absurd h5 hl
      · intro r hr; cases hr
    by_cases hm : Logical other
    swap
    · obtain ⟨a, a1, _⟩ := l1 hl
      rw [a1, m2 hm]
      constructor
      · constructor
        · rintro ⟨r, hr⟩; cases hr
        · rintro ⟨_, _, _, _, _, h6, _⟩
          exact absurd h6 hm
      · intro r hr; cases hr
    obtain ⟨a, a1, a2, a3⟩ := l1 hl
    obtain ⟨b, b1, b2, b3⟩ := m1 hm
    rw [a1, b1]
    dsimp only
    obtain ⟨c1, c2⟩ := C15_binary_operation op.val false a2.wf b2.wf
    unfold BinaryNamesOk at c1 ⊢
    rw [a2.plen, a2.flen, b2.plen, b2.flen, a2.pnames, a2.fnames, b2.pnames, b2.fnames] at c1
    rw [a2.plen, a2.flen, a2.pnames, a2.fnames, b2.pnames, b2.fnames] at c2
    constructor
    · rw [c1]
      constructor
      · rintro ⟨_, _, _, _, h5⟩
        exact ⟨s1, s2, s3, s4, hl, hm, h5⟩
      · rintro ⟨_, _, _, _, _, _, h5⟩
        exact ⟨s1, s2, s3, s4, h5⟩
    · intro r hr
      obtain ⟨d1, d2, d3, d4, d5⟩ := c2 r hr
      refine ⟨d1, d2, d3, ?_, d5⟩
      intro i j v w x y hv hw hx hy
      obtain ⟨v', hv', ex⟩ := a3 i j v x hv hx
      obtain ⟨w', hw', ey⟩ := b3 i j w y hw hy
      have hi := Iter.elem?_lt h hv
      obtain ⟨v2, w2, e1, e2, e3⟩ := d4 i j hi.1 hi.2
      rw [hv'] at e1
      rw [hw'] at e2
      cases e1
      cases e2
      refine ⟨_, e3, ?_⟩
      unfold LOp.val
      rw [isTruth_truth ex, isTruth_truth ey]
      cases op <;> cases x <;> cases y <;> rfl

/-- **C89 (refused logical operators).**  An element that is neither true nor false is refused. -/
theorem C89_logical_refused {P : Conv} {st st' : Store} {op : LOp} {o other : Obj Val} (h : o.WF) (ho : other.WF)
    (hp : o.pts.len = other.pts.len) (hf : o.fts.len = other.fts.len) (h1 : 0 < o.pts.len) (h2 : 0 < o.fts.len)
    (hn : ¬ Logical o ∨ ¬ Logical other) : logical P st st' op o other = .error .ImproperObjectAction := by
  have size : sizeValidation o other = .ok () := by
    unfold sizeValidation
    rw [if_neg (by simpa using hp), if_neg (by simpa using hf), if_neg (by omega)]
  obtain ⟨l1, l2⟩ := logicalConv_spec (P := P) (st := st) h
  obtain ⟨m1, m2⟩ := logicalConv_spec (P := P) (st := st') ho
  unfold logical
  simp only [size, bind, Except.bind]
  by_cases hl : Logical o
  · obtain ⟨a, a1, _⟩ := l1 hl
    rw [a1, m2 (hn.resolve_left (fun h => h hl))]
  · rw [l2 hl]

/-- **C89 (`~obj`).**  `~obj` has the shape and the names of `obj` and is true where `obj` is false, and it is refused
exactly if an element is neither true nor false. -/
theorem C89_invert {P : Conv} {st : Store} {o : Obj Val} (h : o.WF) :
    (Logical o → ∃ r, invert P st o = .ok r ∧ SameFrame r o ∧ TruthOf not o r) ∧
    (¬ Logical o → invert P st o = .error .ImproperObjectAction) := by
  obtain ⟨l1, l2⟩ := logicalConv_spec (P := P) (st := st) h
  unfold invert
  constructor
  · intro hl
    obtain ⟨b, b1, b2, b3⟩ := l1 hl
    simp only [b1, bind, Except.bind]
    have back : ∀ {i j w}, b.elem? i j = some w → ∃ v, o.elem? i j = some v := by
      intro i j w hw
      have hi := Iter.elem?_lt b2.wf hw
      rw [b2.plen, b2.flen] at hi
      obtain ⟨row, e1, _, e3⟩ := h.vector_point hi.1
      exact ⟨row[j], by simp [Obj.elem?, e1, e3, hi.2]⟩
    have hlb : Logical b := by
      intro i j w hw
      obtain ⟨v, hv⟩ := back hw
      obtain ⟨x, hx⟩ := hl i j v hv
      obtain ⟨w', hw', hx'⟩ := b3 i j v x hv hx
      rw [hw] at hw'
      cases hw'
      exact ⟨x, hx'⟩
    obtain ⟨r, r1, r2, r3⟩ := matchNamed_spec (P := P) (st := st) (f := fun v => !truth v) (g := not) b2.wf h b2.plen b2.flen
      hlb (fun v x hx => by rw [isTruth_truth hx])
    refine ⟨r, r1, r2, ?_⟩
    intro i j v x hv hx
    obtain ⟨w, hw, hx'⟩ := b3 i j v x hv hx
    exact r3 i j w x hw hx'
  · intro hl
    simp only [l2 hl, bind, Except.bind]

/-! ## Example -/

/-- Exact arithmetic on finite numbers; a negative power of zero divides by zero. -/
def exactArith : Arith
  | .add, .fin a, .fin b => .ok (.fin (a + b))
  | .sub, .fin a, .fin b => .ok (.fin (a - b))
  | .mul, .fin a, .fin b => .ok (.fin (a * b))
  | .truediv, .fin a, .fin b => .ok (.fin (a / b))
  | .pow, .fin a, .fin b => if a = 0 ∧ b < 0 then .error .divide else .ok (.fin (a ^ b.num))
  | _, _, _ => .ok .nan

/-- Reads "2" only. -/
def exampleConv : Conv := ⟨fun _ => none, fun s => if s = "2" then some (.fin 2) else none, fun _ => ""⟩

/-- Points "a" and "b", features without names; an element is text. -/
def exampleObj : Obj Val :=
  ⟨[[.int false 1, .str "2"], [.flt false (.fin (-3)), .bool false true]], ⟨2, some (NameTable.mk [("a", 0), ("b", 1)] [some "a", some "b"])⟩, ⟨2, none⟩⟩

theorem example_rows {o : Obj Val} {a b c d : Val} (h : o.data = [[a, b], [c, d]]) {i j : Nat} {v : Val}
    (hv : o.elem? i j = some v) : v = a ∨ v = b ∨ v = c ∨ v = d := by
  obtain ⟨r, hr, hvr⟩ := elem_mem hv
  rw [h] at hr
  simp only [List.mem_cons, List.not_mem_nil, or_false] at hr
  rcases hr with rfl | rfl <;> simp only [List.mem_cons, List.not_mem_nil, or_false] at hvr <;> tauto

/-- **C89 (example).**  `10 - obj` for an object with names, numbers, text and a boolean meets the hypotheses of
`C89_scalar`; so does `-obj`. -/
theorem C89_example : exampleObj.WF ∧ Numeric exampleConv .list exampleObj ∧
    (∃ r, scalarOp exactArith exampleConv .list .sub true (.int false 10) exampleObj = .ok r ∧ SameFrame r exampleObj ∧
      r.elem? 0 1 = some (.flt true (.fin 8)) ∧ r.pts.getNames = [some "a", some "b"]) ∧
    (∃ r, neg exactArith exampleConv .list exampleObj = .ok r ∧ SameFrame r exampleObj) := by
  have wf : exampleObj.WF := by
    refine ⟨rfl, by simp [exampleObj], ?_, none_ok _⟩
    exact mk_ok (l := [some "a", some "b"]) rfl (by decide)
  have num : Numeric exampleConv .list exampleObj := by
    intro i j v hv
    rcases example_rows rfl hv with rfl | rfl | rfl | rfl
    · exact ⟨_, .int _ _⟩
    · exact ⟨.fin 2, .text _ _ rfl⟩
    · exact ⟨_, .flt _ _⟩
    · exact ⟨_, .bool _ _⟩
  have fin : ∀ v x, IsNumber exampleConv .list v x → (v = .int false 1 ∨ v = .str "2" ∨ v = .flt false (.fin (-3)) ∨ v = .bool false true) →
      ∃ q, x = .fin q := by
    rintro v x hx (rfl | rfl | rfl | rfl)
    · cases hx; exact ⟨_, rfl⟩
    · cases hx with
      | text _ _ h => exact ⟨2, (Option.some.inj h).symm⟩
    · cases hx; exact ⟨_, rfl⟩
    · cases hx; exact ⟨_, rfl⟩
  refine ⟨wf, num, ?_, ?_⟩
  · obtain ⟨r, r1, r2, r3⟩ := C89_scalar (A := exactArith) (P := exampleConv) (st := .list) (op := .sub) (refl := true)
      (c := .int false 10) (y := .fin 10) (o := exampleObj) wf num (IsScalar.int false 10)
      (by rintro ⟨h | h | h, _⟩ <;> cases h) (by rintro ⟨_, ⟨_, _, h⟩, _⟩; cases h)
      (by
        rintro fl ⟨i, j, v, x, hv, hx, he⟩
        obtain ⟨q, rfl⟩ := fin v x hx (example_rows rfl hv)
        cases he)
    refine ⟨r, r1, r2, ?_, r2.pnames.trans rfl⟩
    obtain ⟨x, z, np, hx, hz, hr⟩ := r3 0 1 (.str "2") rfl
    have e : scalarOp exactArith exampleConv .list .sub true (.int false 10) exampleObj = .ok r := r1
    rw [← isNumber_unique (IsNumber.text "2" (.fin 2) rfl) hx] at hz
    have hnp : r.data = values (applyAll exactArith .sub true (.int false 10)
        [[.int false 1, .flt false (.fin 2)], [.flt false (.fin (-3)), .bool false true]]) := by
      have : scalarOp exactArith exampleConv .list .sub true (.int false 10) exampleObj =
          .ok ⟨values (applyAll exactArith .sub true (.int false 10)
            [[.int false 1, .flt false (.fin 2)], [.flt false (.fin (-3)), .bool false true]]), _, _⟩ := rfl
      rw [this] at e
      cases e
      rfl
    have h8 : between exactArith .sub true (.fin 2) (.fin 10) = .ok (.fin 8) := by decide +kernel
    rw [Obj.elem?, hnp]
    decide +kernel
  · obtain ⟨_, r, r1, r2, _⟩ := C89_neg (A := exactArith) (P := exampleConv) (st := .list) wf num (by
      intro x fl
      cases x <;> simp [exactArith])
    exact ⟨r, r1, r2⟩

end Nimble.Scalar
