import Verif.Model.Csv
import Mathlib.Data.List.Forall2

/-!
# C37, C60: the types of the columns of a csv file
-/

namespace Nimble.Csv

variable {F : Type}

/-! ### Specification -/

/-- What Python's `int`, `float` and `str` guarantee: numbers are read back from their texts, the text of
a float is not that of an int, and neither is `True` or `False`. -/
structure Lawful (P : NumParse F) (showFloat : F → Str) (ofInt : Int → F) : Prop where
  int_int : ∀ n, P.asInt (intText n) = some n
  float_int : ∀ n, P.asFloat (intText n) = some (ofInt n)
  int_float : ∀ f, P.asInt (showFloat f) = none
  float_float : ∀ f, P.asFloat (showFloat f) = some f
  float_ne : ∀ f, showFloat f ≠ []
  int_true : P.asInt "True".toList = none
  int_false : P.asInt "False".toList = none
  float_true : P.asFloat "True".toList = none
  float_false : P.asFloat "False".toList = none

/-- The same value, where the int `n` and the float `n` are the same. -/
inductive SameCell (ofInt : Int → F) : Cell F → Cell F → Prop
  | refl (c) : SameCell ofInt c c
  | int (n) : SameCell ofInt (.int n) (.float (ofInt n))

/-- A text which is neither empty, a number nor a truth value. -/
structure IsWord (P : NumParse F) (s : Str) : Prop where
  ne : s ≠ []
  int : P.asInt s = none
  float : P.asFloat s = none
  true : s ≠ "True".toList
  false : s ≠ "False".toList

/-- A feature of numbers, of truth values, or of strings with at least one word among them. -/
inductive GoodColumn (P : NumParse F) (l : List (Cell F)) : Prop
  | numbers : (∀ c ∈ l, (∃ n, c = .int n) ∨ ∃ f, c = .float f) → GoodColumn P l
  | bools : (∀ c ∈ l, ∃ b, c = .bool b) → GoodColumn P l
  | strings : (∀ c ∈ l, ∃ s, c = .str s) → (∃ s, .str s ∈ l ∧ IsWord P s) → GoodColumn P l

/-- The type of a column as a function of the set of types of its texts: text if a word is among them,
or a truth value and a number; otherwise the type of all of them, float for ints and floats. -/
def typeOf (word bool int float : Bool) : Col :=
  if word then .text
  else if bool then (if int || float then .text else .conv .bool)
  else if float then .conv .float
  else if int then .conv .int
  else .empty

/-- The set of types. -/
def hasType (P : NumParse F) (t : CType) (l : List Str) : Bool :=
  l.any (fun v => decide ((intFloatBoolOrString P v).type = some t))

/-! ### The type of a column -/

theorem type_none {P : NumParse F} {v : Str} : (intFloatBoolOrString P v).type = none ↔ v = [] := by
  unfold intFloatBoolOrString intFloatOrString
  by_cases h : v = []
  · rw [if_pos h]; simp [h, Cell.type]
  · rw [if_neg h]
    simp only [h, iff_false]
    cases P.asInt v with
    | some n => simp [Cell.type]
    | none =>
      cases P.asFloat v with
      | some f => simp [Cell.type]
      | none =>
        dsimp only
        split
        · simp [Cell.type]
        · split <;> simp [Cell.type]

theorem column_fold (P : NumParse F) : ∀ (vs : List Str) (w b i f : Bool), (w || b || i || f) = true →
    vs.foldl (Col.next P) (typeOf w b i f)
      = typeOf (w || hasType P .str vs) (b || hasType P .bool vs) (i || hasType P .int vs)
          (f || hasType P .float vs)
  | [], w, b, i, f, _ => by simp [hasType]
  | v :: vs, w, b, i, f, h => by
    have key : Col.next P (typeOf w b i f) v
        = typeOf (w || decide ((intFloatBoolOrString P v).type = some .str))
            (b || decide ((intFloatBoolOrString P v).type = some .bool))
            (i || decide ((intFloatBoolOrString P v).type = some .int))
            (f || decide ((intFloatBoolOrString P v).type = some .float)) := by
      have hk : ∀ t : Option CType, ∀ w b i f : Bool, (w || b || i || f) = true →
          (match typeOf w b i f with
            | .conv cur => Col.meet cur t
            | .text => .text
            | .empty => .empty)
            = typeOf (w || decide (t = some .str)) (b || decide (t = some .bool))
              (i || decide (t = some .int)) (f || decide (t = some .float)) := by
        intro t
        cases t with
        | none => decide
        | some t => cases t <;> decide
      have he : ∀ w b i f : Bool, (w || b || i || f) = true → typeOf w b i f ≠ .empty := by decide
      rw [← hk _ w b i f h]
      have hne := he w b i f h
      unfold Col.next
      cases hc : typeOf w b i f with
      | conv t => rfl
      | text => rfl
      | empty => exact absurd hc hne
    rw [List.foldl_cons, key, column_fold P vs _ _ _ _ (by
      cases w <;> cases b <;> cases i <;> cases f <;> simp_all)]
    simp only [hasType, List.any_cons, Bool.or_assoc]

/-- The type found for a column whose first text is not empty depends on the set of the types of its
texts only. -/
theorem column_type (P : NumParse F) {v : Str} (hv : v ≠ []) (vs : List Str) :
    vs.foldl (Col.next P) (Col.first P v)
      = typeOf (hasType P .str (v :: vs)) (hasType P .bool (v :: vs)) (hasType P .int (v :: vs))
          (hasType P .float (v :: vs)) := by
  have hn : (intFloatBoolOrString P v).type ≠ none := fun h => hv (type_none.1 h)
  have hf : Col.first P v = typeOf (decide ((intFloatBoolOrString P v).type = some .str))
      (decide ((intFloatBoolOrString P v).type = some .bool))
      (decide ((intFloatBoolOrString P v).type = some .int))
      (decide ((intFloatBoolOrString P v).type = some .float)) := by
    unfold Col.first
    cases ht : (intFloatBoolOrString P v).type with
    | none => exact absurd ht hn
    | some t => cases t <;> rfl
  rw [hf, column_fold]
  · simp only [hasType, List.any_cons]
  · cases ht : (intFloatBoolOrString P v).type with
    | none => exact absurd ht hn
    | some t => cases t <;> rfl

/-- C60. The type which the csv reader gives a feature whose first value is not empty depends only on
which types occur among its values: two files with the same values in another order (and first values
which are not empty) get the same type. -/
theorem C60_column_type_partial (P : NumParse F) {v w : Str} {vs ws : List Str} (hv : v ≠ []) (hw : w ≠ [])
    (h : (v :: vs).Perm (w :: ws)) :
    vs.foldl (Col.next P) (Col.first P v) = ws.foldl (Col.next P) (Col.first P w) := by
  rw [column_type P hv, column_type P hw]
  have : ∀ t, hasType P t (v :: vs) = hasType P t (w :: ws) := fun t => by
    unfold hasType
    exact h.any_eq
  simp only [this]

/-- C60, violated. A feature whose first value is empty is text, whatever the other values are; with the
same values in another order it is a feature of ints. -/
theorem C60_first_empty_violated (P : NumParse F) {v : Str} {vs : List Str} (hv : v ≠ [])
    (hi : ∀ x ∈ v :: vs, ∃ n, intFloatBoolOrString P x = .int n) :
    (v :: vs).foldl (Col.next P) (Col.first P []) = .text ∧
    (vs ++ [[]]).foldl (Col.next P) (Col.first P v) = .conv .int := by
  constructor
  · have h1 : Col.first P [] = .empty := by
      simp [Col.first, intFloatBoolOrString, intFloatOrString, Cell.type]
    rw [h1, List.foldl_cons]
    have h2 : Col.next P .empty v = .text := by simp [Col.next, hv]
    rw [h2]
    induction vs with
    | nil => rfl
    | cons a l ih =>
      rw [List.foldl_cons]
      exact ih (fun x hx => hi x (by
        rcases List.mem_cons.1 hx with h | h
        · simp [h]
        · simp [h]))
  · rw [column_type P hv]
    have h0 : (intFloatBoolOrString P []).type = none := type_none.2 rfl
    have hty : ∀ x ∈ v :: (vs ++ [[]]), (intFloatBoolOrString P x).type = some .int ∨
        (intFloatBoolOrString P x).type = none := by
      intro x hx
      rcases List.mem_cons.1 hx with h | h
      · obtain ⟨n, hn⟩ := hi x (by simp [h]); left; rw [hn]; rfl
      · rcases List.mem_append.1 h with h | h
        · obtain ⟨n, hn⟩ := hi x (by simp [h]); left; rw [hn]; rfl
        · right; rw [List.mem_singleton.1 h]; exact h0
    have hno : ∀ t, t ≠ CType.int → hasType P t (v :: (vs ++ [[]])) = false := by
      intro t ht
      unfold hasType
      rw [List.any_eq_false]
      intro x hx
      rcases hty x hx with h | h
      · rw [h]; simpa using fun e => ht e.symm
      · rw [h]; simp
    have hyes : hasType P .int (v :: (vs ++ [[]])) = true := by
      unfold hasType
      rw [List.any_eq_true]
      obtain ⟨n, hn⟩ := hi v (by simp)
      exact ⟨v, by simp, by rw [hn]; rfl⟩
    rw [hno .str (by decide), hno .bool (by decide), hno .float (by decide), hyes]
    rfl

/-! ### Reading the values back -/

theorem intText_ne (n : Int) : intText n ≠ [] := by
  unfold intText
  split
  · simp
  · exact Nat.toDigits_ne_nil

section
variable {P : NumParse F} {showFloat : F → Str} {ofInt : Int → F}

theorem type_int (L : Lawful P showFloat ofInt) (n : Int) :
    intFloatBoolOrString P (intText n) = .int n := by
  unfold intFloatBoolOrString intFloatOrString
  rw [if_neg (intText_ne n), L.int_int]

theorem type_float (L : Lawful P showFloat ofInt) (f : F) :
    intFloatBoolOrString P (showFloat f) = .float f := by
  unfold intFloatBoolOrString intFloatOrString
  rw [if_neg (L.float_ne f), L.int_float, L.float_float]

theorem type_bool (L : Lawful P showFloat ofInt) (b : Bool) :
    intFloatBoolOrString P (cellText showFloat (.bool b)) = .bool b := by
  unfold intFloatBoolOrString intFloatOrString
  cases b with
  | true =>
    rw [show cellText showFloat (.bool true) = "True".toList from rfl, if_neg (by decide), L.int_true,
      L.float_true]
    rfl
  | false =>
    rw [show cellText showFloat (.bool false) = "False".toList from rfl, if_neg (by decide), L.int_false,
      L.float_false]
    rfl

theorem type_word {s : Str} (h : IsWord P s) : intFloatBoolOrString P s = .str s := by
  unfold intFloatBoolOrString intFloatOrString
  rw [if_neg h.ne, h.int, h.float]
  dsimp only
  rw [if_neg h.true, if_neg h.false]

theorem text_fold (P : NumParse F) (l : List Str) : l.foldl (Col.next P) .text = .text := by
  induction l with
  | nil => rfl
  | cons a l ih => rw [List.foldl_cons]; exact ih

/-- The type `str` is never converted to. -/
theorem next_ne_str {c : Col} (h : c ≠ .conv .str) (v : Str) : Col.next P c v ≠ .conv .str := by
  cases c with
  | conv t =>
    unfold Col.next
    dsimp only
    generalize (intFloatBoolOrString P v).type = u
    have : t ≠ .str := fun e => h (by rw [e])
    revert this
    cases u with
    | none => cases t <;> decide
    | some u => cases t <;> cases u <;> decide
  | text => simp [Col.next]
  | empty => unfold Col.next; dsimp only; split <;> simp

theorem first_ne_str (v : Str) : Col.first P v ≠ .conv .str := by
  unfold Col.first
  cases (intFloatBoolOrString P v).type with
  | none => simp
  | some t => cases t <;> simp

/-- A column with a word is text. -/
theorem word_column {s : Str} (h : IsWord P s) : ∀ (l : List Str), s ∈ l → ∀ c : Col, c ≠ .conv .str →
    l.foldl (Col.next P) c = .text
  | [], hs, _, _ => by cases hs
  | a :: l, hs, c, hc => by
    rw [List.foldl_cons]
    rcases List.mem_cons.1 hs with rfl | hs
    · have : Col.next P c s = .text := by
        cases c with
        | conv t =>
          unfold Col.next
          dsimp only
          rw [type_word h, show (Cell.str s : Cell F).type = some .str from rfl]
          have : t ≠ .str := fun e => hc (by rw [e])
          revert this
          cases t <;> decide
        | text => rfl
        | empty => unfold Col.next; simp [h.ne]
      rw [this, text_fold]
    · exact word_column h l hs _ (next_ne_str hc a)

/-- The column of a good feature: not empty, and every value is read back. -/
theorem good_column (L : Lawful P showFloat ofInt) {c : Cell F} {l : List (Cell F)}
    (h : GoodColumn P (c :: l)) (e : Bool) :
    let col := (l.map (cellText showFloat)).foldl (Col.next P) (Col.first P (cellText showFloat c))
    col ≠ .empty ∧ ∀ x ∈ c :: l, ∃ y, convertCell P (col.final e) (cellText showFloat x) = .ok y ∧
      SameCell ofInt x y := by
  intro col
  cases h with
  | numbers h =>
    have hne : ∀ x ∈ c :: l, cellText showFloat x ≠ [] := by
      intro x hx
      rcases h x hx with ⟨n, rfl⟩ | ⟨f, rfl⟩
      · exact intText_ne n
      · exact L.float_ne f
    have htext : ∀ x ∈ c :: l, (∃ n, intFloatBoolOrString P (cellText showFloat x) = .int n) ∨
        ∃ f, intFloatBoolOrString P (cellText showFloat x) = .float f := by
      intro x hx
      rcases h x hx with ⟨n, rfl⟩ | ⟨f, rfl⟩
      · exact Or.inl ⟨n, type_int L n⟩
      · exact Or.inr ⟨f, type_float L f⟩
    have hno : ∀ t, t = CType.str ∨ t = CType.bool → hasType P t ((c :: l).map (cellText showFloat)) = false := by
      intro t ht
      unfold hasType
      rw [List.any_eq_false]
      intro v hv
      obtain ⟨x, hx, rfl⟩ := List.mem_map.1 hv
      rcases htext x hx with ⟨n, hn⟩ | ⟨f, hf⟩
      · rw [hn]; rcases ht with rfl | rfl <;> simp [Cell.type]
      · rw [hf]; rcases ht with rfl | rfl <;> simp [Cell.type]
    have hcol : col = typeOf false false (hasType P .int ((c :: l).map (cellText showFloat)))
        (hasType P .float ((c :: l).map (cellText showFloat))) := by
      have := column_type P (hne c (by simp)) (l.map (cellText showFloat))
      rw [← List.map_cons, hno _ (Or.inl rfl), hno _ (Or.inr rfl)] at this
      exact this
    cases hf : hasType P .float ((c :: l).map (cellText showFloat)) with
    | true =>
      have hcol' : col = .conv .float := by
        rw [hcol, hf]
        cases hasType P .int ((c :: l).map (cellText showFloat)) <;> rfl
      rw [hcol']
      refine ⟨by simp, fun x hx => ?_⟩
      rcases h x hx with ⟨n, rfl⟩ | ⟨f, rfl⟩
      · refine ⟨.float (ofInt n), ?_, SameCell.int n⟩
        show convertCell P (.conv .float) (intText n) = _
        simp only [convertCell, if_neg (intText_ne n), L.float_int, orValueError, bind, Except.bind, pure,
          Except.pure]
      · refine ⟨.float f, ?_, SameCell.refl _⟩
        show convertCell P (.conv .float) (showFloat f) = _
        simp only [convertCell, if_neg (L.float_ne f), L.float_float, orValueError, bind, Except.bind, pure,
          Except.pure]
    | false =>
      have hall : ∀ x ∈ c :: l, ∃ n, x = .int n := by
        intro x hx
        rcases h x hx with hn | ⟨f, rfl⟩
        · exact hn
        · exfalso
          unfold hasType at hf
          rw [List.any_eq_false] at hf
          apply hf (showFloat f) (List.mem_map.2 ⟨.float f, hx, rfl⟩)
          rw [type_float L f]
          simp [Cell.type]
      have hi : hasType P .int ((c :: l).map (cellText showFloat)) = true := by
        unfold hasType
        rw [List.any_eq_true]
        obtain ⟨n, hn⟩ := hall c (by simp)
        subst hn
        exact ⟨intText n, by simp [cellText], by rw [type_int L n]; simp [Cell.type]⟩
      have hcol' : col = .conv .int := by rw [hcol, hf, hi]; rfl
      rw [hcol']
      refine ⟨by simp, fun x hx => ?_⟩
      obtain ⟨n, rfl⟩ := hall x hx
      refine ⟨.int n, ?_, SameCell.refl _⟩
      show convertCell P (.conv .int) (intText n) = _
      simp only [convertCell, if_neg (intText_ne n), L.int_int, orValueError, bind, Except.bind, pure,
        Except.pure]
  | bools h =>
    have hne : ∀ x ∈ c :: l, cellText showFloat x ≠ [] := by
      intro x hx
      obtain ⟨b, rfl⟩ := h x hx
      cases b <;> simp [cellText]
    have hno : ∀ t, t ≠ CType.bool → hasType P t ((c :: l).map (cellText showFloat)) = false := by
      intro t ht
      unfold hasType
      rw [List.any_eq_false]
      intro v hv
      obtain ⟨x, hx, rfl⟩ := List.mem_map.1 hv
      obtain ⟨b, rfl⟩ := h x hx
      rw [type_bool L b]
      simpa [Cell.type] using fun e => ht e.symm
    have hyes : hasType P .bool ((c :: l).map (cellText showFloat)) = true := by
      unfold hasType
      rw [List.any_eq_true]
      obtain ⟨b, hb⟩ := h c (by simp)
      subst hb
      exact ⟨_, List.mem_cons_self, by rw [type_bool L b]; rfl⟩
    have hcol' : col = .conv .bool := by
      have := column_type P (hne c (by simp)) (l.map (cellText showFloat))
      rw [← List.map_cons, hno .str (by decide), hno .int (by decide), hno .float (by decide), hyes] at this
      exact this
    rw [hcol']
    refine ⟨by simp, fun x hx => ?_⟩
    obtain ⟨b, rfl⟩ := h x hx
    refine ⟨.bool b, ?_, SameCell.refl _⟩
    show convertCell P (.conv .bool) (cellText showFloat (.bool b)) = _
    cases b <;> rfl
  | strings h hw =>
    obtain ⟨s, hs, hw⟩ := hw
    have hcol' : col = .text := by
      rcases List.mem_cons.1 hs with hs | hs
      · show (l.map (cellText showFloat)).foldl (Col.next P) (Col.first P (cellText showFloat c)) = .text
        rw [← hs]
        have : Col.first P s = .text := by unfold Col.first; rw [type_word hw]; rfl
        rw [show cellText showFloat (.str s) = s from rfl, this, text_fold]
      · exact word_column hw _ (List.mem_map.2 ⟨.str s, hs, rfl⟩) _ (first_ne_str _)
    rw [hcol']
    refine ⟨by simp, fun x hx => ?_⟩
    obtain ⟨t, rfl⟩ := h x hx
    exact ⟨.str t, rfl, SameCell.refl _⟩

end

end Nimble.Csv
