import Verif.Props.CsvNames

/-!
# C37, C60, C61: a parser of numbers as Python's, and what is not read back
-/

namespace Nimble.Csv

/-! ### A parser -/

/-- Digits, at least one. -/
def demoNat (s : Str) : Option Int :=
  if s ≠ [] ∧ s.all Char.isDigit = true then some (Nat.ofDigitChars 10 s 0) else none

/-- An optional sign and digits. -/
def demoInt : Str → Option Int
  | '-' :: s => (demoNat s).map (- ·)
  | s => demoNat s

/-- An int, or an int followed by `.0` (the only floats are integral ones). -/
def demoFloat (s : Str) : Option Int :=
  match s.reverse with
  | '0' :: '.' :: r => demoInt r.reverse
  | _ => demoInt s

def demo : NumParse Int := ⟨demoInt, demoFloat⟩

def demoShow (k : Int) : Str := intText k ++ ['.', '0']

theorem demoNat_toDigits (n : Nat) : demoNat (Nat.toDigits 10 n) = some (n : Int) := by
  have h : (Nat.toDigits 10 n).all Char.isDigit = true := by
    rw [List.all_eq_true]
    intro c hc
    exact Nat.isDigit_of_mem_toDigits (by decide) (by decide) hc
  unfold demoNat
  rw [if_pos ⟨Nat.toDigits_ne_nil, h⟩, Nat.ofDigitChars_ten_toDigits]

theorem toDigits_isDigit {n : Nat} {c : Char} (h : c ∈ Nat.toDigits 10 n) : c.isDigit = true :=
  Nat.isDigit_of_mem_toDigits (by decide) (by decide) h

theorem demoInt_digits {s : Str} (h : ∀ c ∈ s, c.isDigit = true) : demoInt s = demoNat s := by
  unfold demoInt
  split
  · have := h '-' (by simp)
    exact absurd this (by decide)
  · rfl

theorem demoInt_intText (n : Int) : demoInt (intText n) = some n := by
  unfold intText
  split
  · rename_i h
    show (demoNat _).map _ = _
    rw [demoNat_toDigits]
    simp only [Option.map_some, Option.some.injEq]
    omega
  · rw [demoInt_digits (fun c hc => toDigits_isDigit hc), demoNat_toDigits]
    simp only [Option.some.injEq]
    omega

theorem intText_noDot (n : Int) : '.' ∉ intText n := by
  intro h
  unfold intText at h
  split at h
  · rcases List.mem_cons.1 h with h | h
    · exact absurd h (by decide)
    · exact absurd (toDigits_isDigit h) (by decide)
  · exact absurd (toDigits_isDigit h) (by decide)

theorem demoNat_dot {s : Str} (h : '.' ∈ s) : demoNat s = none := by
  unfold demoNat
  rw [if_neg]
  rintro ⟨_, hall⟩
  rw [List.all_eq_true] at hall
  exact absurd (hall '.' h) (by decide)

theorem demoInt_dot {s : Str} (h : '.' ∈ s) : demoInt s = none := by
  unfold demoInt
  split
  · rename_i r
    rcases List.mem_cons.1 h with h | h
    · exact absurd h (by decide)
    · rw [demoNat_dot h]; rfl
  · exact demoNat_dot h

theorem demoFloat_plain {s : Str} (h : '.' ∉ s) : demoFloat s = demoInt s := by
  unfold demoFloat
  split
  · rename_i r he
    exfalso
    apply h
    rw [← List.mem_reverse, he]
    simp
  · rfl

/-- The parser is lawful. -/
theorem demo_lawful : Lawful demo demoShow (fun n => n) where
  int_int := demoInt_intText
  float_int := fun n => (demoFloat_plain (intText_noDot n)).trans (demoInt_intText n)
  int_float := fun f => demoInt_dot (by simp [demoShow])
  float_float := fun f => by
    show demoFloat (demoShow f) = some f
    have : (demoShow f).reverse = '0' :: '.' :: (intText f).reverse := by simp [demoShow]
    unfold demoFloat
    rw [this]
    simp only [List.reverse_reverse]
    exact demoInt_intText f
  float_ne := fun f => by simp [demoShow]
  int_true := by decide +kernel
  int_false := by decide +kernel
  float_true := by decide +kernel
  float_false := by decide +kernel

/-! ### The hypotheses are met -/

/-- A table with names: a word, a number and truth values; one of the texts has a comma, quotes and a line
break. -/
def demoVals : List (List (Cell Int)) :=
  [[.str "a,\"\nb".toList, .int 5, .bool true], [.str "7".toList, .float 2, .bool false]]

def demoP : Option (List Str) := some ["p".toList, "#q".toList]
def demoF : Option (List Str) := some ["x".toList, "y, z".toList, "w".toList]

theorem demo_shape : Shape demoP demoF demoVals 3 where
  rows := by simp [demoVals]
  cols := by decide
  rect := by decide +kernel
  pnames := by rintro ps h; obtain rfl := Option.some.inj h; rfl
  fnames := by rintro ns h; obtain rfl := Option.some.inj h; exact ⟨rfl, by decide +kernel⟩

theorem demo_columns : ∀ j < 3, GoodColumn demo (featureVals demoVals j) := by
  intro j hj
  match j, hj with
  | 0, _ =>
    refine .strings ?_ ⟨"a,\"\nb".toList, by decide +kernel, ?_⟩
    · intro c hc
      simp only [featureVals, demoVals, List.map_cons, List.map_nil, List.getD_cons_zero] at hc
      rcases List.mem_cons.1 hc with rfl | hc
      · exact ⟨_, rfl⟩
      · rw [List.mem_singleton.1 hc]; exact ⟨_, rfl⟩
    · constructor <;> decide +kernel
  | 1, _ =>
    refine .numbers ?_
    intro c hc
    simp only [featureVals, demoVals, List.map_cons, List.map_nil, List.getD_cons_zero,
      List.getD_cons_succ] at hc
    rcases List.mem_cons.1 hc with rfl | hc
    · exact Or.inl ⟨_, rfl⟩
    · rw [List.mem_singleton.1 hc]; exact Or.inr ⟨_, rfl⟩
  | 2, _ =>
    refine .bools ?_
    intro c hc
    simp only [featureVals, demoVals, List.map_cons, List.map_nil, List.getD_cons_zero,
      List.getD_cons_succ] at hc
    rcases List.mem_cons.1 hc with rfl | hc
    · exact ⟨_, rfl⟩
    · rw [List.mem_singleton.1 hc]; exact ⟨_, rfl⟩

/-- The loaded table: the int became a float, as the feature has a float. -/
example : (saveCsv true (asNames demoP) (asNames demoF) (demoVals.map (List.map (cellText demoShow)))).bind
      (loadCsv demo .auto .auto true)
    = .ok ⟨[[.str "a,\"\nb".toList, .float 5, .bool true], [.str "7".toList, .float 2, .bool false]],
        some [some "p".toList, some "#q".toList],
        some [some "x".toList, some "y, z".toList, some "w".toList]⟩ := by decide +kernel

/-! ### What is not read back -/

/-- Save without names and load without names. -/
def again (vals : List (List (Cell Int))) : Res (Loaded Int) :=
  (saveCsv true none none (vals.map (List.map (cellText demoShow)))).bind (loadCsv demo .no .no true)

/-- C37, violated. Quotes around a text are lost. -/
theorem C37_quotes_violated :
    again [[.str "\"s\"".toList, .int 1]] = .ok ⟨[[.str "s".toList, .int 1]], none, none⟩ := by decide +kernel

/-- C37, violated. A text with a line break and no comma makes two points. -/
theorem C37_linebreak_violated :
    again [[.str "a\nb".toList]] = .ok ⟨[[.str "a".toList], [.str "b".toList]], none, none⟩ := by decide +kernel

/-- C37, violated. A first point beginning with `#` is lost, as is a point whose only value is empty. -/
theorem C37_lost_points_violated :
    again [[.str "#a".toList, .int 1], [.str "b".toList, .int 2]] = .ok ⟨[[.str "b".toList, .int 2]], none, none⟩ ∧
    again [[.str "a".toList], [.str []], [.str "b".toList]]
      = .ok ⟨[[.str "a".toList], [.str "b".toList]], none, none⟩ := by decide +kernel

/-- C37, violated. In a feature of a number and a word the number comes back as a string. -/
theorem C37_mixed_violated :
    again [[.int 5], [.str "b".toList]] = .ok ⟨[[.str "5".toList], [.str "b".toList]], none, none⟩ ∧
    again [[.bool true], [.int 1]] = .ok ⟨[[.str "True".toList], [.str "1".toList]], none, none⟩ := by
  decide +kernel

/-- C37, violated. Names not found automatically: feature names above a point without a number become a
point; point names without feature names become a feature; a first feature called `pointNames` becomes the
names of the points. -/
theorem C37_automatic_violated :
    (saveCsv true none (some [some "x".toList, some "y".toList]) [["a".toList, "b".toList]]).bind
        (loadCsv demo .auto .auto true)
      = .ok ⟨[[.str "x".toList, .str "y".toList], [.str "a".toList, .str "b".toList]], none, none⟩ ∧
    (saveCsv true (some [some "p".toList, some "q".toList]) none [["1".toList], ["2".toList]]).bind
        (loadCsv demo .auto .auto true)
      = .ok ⟨[[.str "p".toList, .int 1], [.str "q".toList, .int 2]], none, none⟩ ∧
    (saveCsv true none (some [some "pointNames".toList, some "y".toList]) [["1".toList, "2".toList]]).bind
        (loadCsv demo .auto .auto true)
      = .ok ⟨[[.int 2]], some [some "1".toList], some [some "y".toList]⟩ := by decide +kernel

/-- C37, violated. A file with a blank header over a first column whose values repeat after two points
(so that they are values and not names) cannot be loaded: the types found for the features are those of
their left neighbours. -/
theorem C37_blank_header_violated :
    loadCsv demo .auto .auto true ",a,b\ny,1,2\n5,3,4\n5,6,7\n".toList = .error .ValueError ∧
    loadCsv demo .auto .auto true ",a,b\ny,1,2\n5,3,4\n6,6,7\n".toList
      = .ok ⟨[[.int 1, .int 2], [.int 3, .int 4], [.int 6, .int 7]],
          some [some "y".toList, some "5".toList, some "6".toList],
          some [some "a".toList, some "b".toList]⟩ := by decide +kernel

/-- C37, violated. If some but not all points, or some but not all features, have names, nothing is saved
(`TypeError`). -/
theorem C37_partial_names_violated {pn fn : Option (List (Option Str))} {rows : List (List Str)}
    (h0 : rows ≠ []) (h1 : rows.head? ≠ some []) :
    (∀ ns, fn = some ns → ns.any Option.isSome = true → none ∈ ns →
      saveCsv true pn fn rows = .error .TypeError) ∧
    (∀ ps, fn = none → pn = some ps → ps.any Option.isSome = true → none ∈ ps → ps.length = rows.length →
      saveCsv true pn fn rows = .error .TypeError) := by
  have hnt : ∀ l : List (Option Str), none ∈ l → nameTexts l = .error .TypeError := by
    intro l
    induction l with
    | nil => intro h; cases h
    | cons a l ih =>
      intro h
      cases a with
      | none => rfl
      | some s =>
        have : none ∈ l := by
          rcases List.mem_cons.1 h with h | h
          · cases h
          · exact h
        simp only [nameTexts, ih this, bind, Except.bind]
  have hnl : ∀ (l : List (Option Str)) (rs : List (List Str)), none ∈ l → l.length = rs.length →
      namedLines l rs = .error .TypeError := by
    intro l
    induction l with
    | nil => intro rs h; cases h
    | cons a l ih =>
      intro rs h hl
      cases rs with
      | nil => simp at hl
      | cons r rs =>
        cases a with
        | none => rfl
        | some s =>
          have : none ∈ l := by
            rcases List.mem_cons.1 h with h | h
            · cases h
            · exact h
          simp only [namedLines, ih rs this (by simpa using hl), bind, Except.bind]
  have hr : ¬ (rows = [] ∨ rows.head? = some []) := fun h => h.elim h0 h1
  constructor
  · rintro ns rfl ha hn
    unfold saveCsv
    rw [if_neg hr]
    have : namesSeen true (some ns) = true := by simpa [namesSeen] using ha
    simp only [this, saveHeader, if_true, headerLine, Option.getD_some, hnt ns hn, bind, Except.bind]
  · rintro ps rfl rfl ha hn hl
    unfold saveCsv
    rw [if_neg hr]
    have : namesSeen true (some ps) = true := by simpa [namesSeen] using ha
    have h2 : namesSeen true none = false := rfl
    simp only [this, h2, saveHeader, Bool.false_eq_true, if_false, saveBody, if_true, Option.getD_some,
      hnl ps rows hn hl, bind, Except.bind]

example : saveCsv true none (some [some "x".toList, none]) [["1".toList, "2".toList]] = .error .TypeError := by
  decide +kernel

/-- C37, violated. A string which is the text of an int comes back as the int. -/
theorem C37_numeric_string_violated {F : Type} {P : NumParse F} {showFloat : F → Str} {ofInt : Int → F}
    (L : Lawful P showFloat ofInt) (n : Int) (e : Bool) :
    (saveCsv true none none [[cellText showFloat (.str (intText n))]]).bind (loadCsv P .no .no e)
      = .ok ⟨[[.int n]], none, none⟩ := by
  have hs : ∀ c ∈ intText n, c ≠ '\r' ∧ c ≠ '\n' ∧ c ≠ ',' ∧ c ≠ '"' ∧ c ≠ '#' := by
    intro c hc
    have : c = '-' ∨ c.isDigit = true := by
      unfold intText at hc
      split at hc
      · rcases List.mem_cons.1 hc with h | h
        · exact Or.inl h
        · exact Or.inr (toDigits_isDigit h)
      · exact Or.inr (toDigits_isDigit hc)
    rcases this with rfl | h
    · decide
    · refine ⟨?_, ?_, ?_, ?_, ?_⟩ <;> (rintro rfl; exact absurd h (by decide))
  have hhead : ∀ c, (intText n).head? = some c → c ∈ intText n := fun c h => List.mem_of_mem_head? h
  have hc : ',' ∉ intText n := fun h => (hs _ h).2.2.1 rfl
  have hsafe : ∀ r ∈ [[intText n]], SafeRow r := by
    intro r hr
    rw [List.mem_singleton.1 hr]
    refine ⟨by simp, by simpa using intText_ne n, fun c hm => ?_⟩
    rw [List.mem_singleton.1 hm]
    exact ⟨fun h => (hs _ h).1 rfl, fun h => absurd h hc, fun _ =>
      ⟨fun h => (hs _ h).2.1 rfl, fun h => (hs _ (hhead _ h)).2.2.2.1 rfl⟩⟩
  have hcom : NotComment [[intText n]] := by
    intro r c hr hc
    obtain rfl := Option.some.inj hr
    obtain rfl := Option.some.inj hc
    exact Or.inr (fun h => (hs _ (hhead _ h)).2.2.2.2 rfl)
  have hsave := save_eq (pn := none) (fn := none) (texts := [[intText n]]) (by simp) (by simp) (by simp) (by simp)
  have hsave' : saveCsv true none none [[cellText showFloat (.str (intText n))]]
      = .ok ((fileRows none none [[intText n]]).flatMap csvLine) := hsave
  have hfr : fileRows none none [[intText n]] = [[intText n]] := rfl
  rw [hsave', hfr]
  obtain ⟨lines, hl1, hl2, hl3⟩ := read_table (by simp) hsafe hcom
  show loadCsv P .no .no e _ = _
  rw [load_records P hl1 hl2 hl3]
  have hck : checkNames P .no .no [[intText n]] = (.no, .no, false) := by
    unfold checkNames
    rw [List.filter_cons_of_pos (by simp)]
    rfl
  rw [hck]
  have hf : Col.first P (intText n) = .conv .int := by unfold Col.first; rw [type_int L n]; rfl
  simp only [startLoop, bind, Except.bind, Loop.rows, Loop.row, Loop.outOfNames, Loop.keep, Loop.takeName,
    Loop.named, Bool.false_eq_true, if_false]
  simp [Loop.finish, trackCols, lastRemovable, hf, convertRows, convertRow, convertCell, Col.final, intText_ne,
    L.int_int, orValueError, finalPointNames, bind, Except.bind, pure, Except.pure]

/-! ### Carriage returns -/

theorem universal_noCr : ∀ (b : Bool) (t : Str), '\r' ∉ universal b t
  | _, [] => by simp [universal]
  | b, c :: t => by
    unfold universal
    have h1 := universal_noCr true t
    have h2 := universal_noCr false t
    split
    · simpa using h1
    · split
      · split
        · exact h2
        · simpa using h2
      · rename_i hc _
        simpa using ⟨fun e => hc e.symm, h2⟩

theorem splitLines_mem : ∀ (t : Str) (l : Str), l ∈ splitLines t → ∀ c ∈ l, c ∈ t
  | [], l, h, _, _ => by cases h
  | a :: t, l, h, c, hc => by
    unfold splitLines at h
    split at h
    · rename_i ha
      rcases List.mem_cons.1 h with rfl | h
      · rw [List.mem_singleton.1 hc, ha]; simp
      · exact List.mem_cons_of_mem _ (splitLines_mem t l h c hc)
    · have ih := splitLines_mem t
      cases hs : splitLines t with
      | nil =>
        rw [hs] at h
        rw [show consLine a [] = [[a]] from rfl] at h
        rw [List.mem_singleton.1 h] at hc
        rw [List.mem_singleton.1 hc]; simp
      | cons x xs =>
        rw [hs] at h ih
        rw [show consLine a (x :: xs) = (a :: x) :: xs from rfl] at h
        rcases List.mem_cons.1 h with rfl | h
        · rcases List.mem_cons.1 hc with rfl | hc
          · simp
          · exact List.mem_cons_of_mem _ (ih x (by simp) c hc)
        · exact List.mem_cons_of_mem _ (ih l (List.mem_cons_of_mem _ h) c hc)

theorem advance_mem : ∀ (ls out : List Str), advancePastComments ls = .ok out → ∀ l ∈ out, l ∈ ls
  | [], _, h, _, _ => by cases h
  | a :: ls, out, h, l, hl => by
    unfold advancePastComments at h
    split at h
    · exact List.mem_cons_of_mem _ (advance_mem ls out h l hl)
    · obtain rfl := Except.ok.inj h
      exact hl

section
variable {Q : Char → Prop}

/-- The texts of a reader consist of characters with the property. -/
def Reader.Ok (Q : Char → Prop) (r : Reader) : Prop := (∀ c ∈ r.field, Q c) ∧ ∀ f ∈ r.fields, ∀ c ∈ f, Q c

theorem Reader.ok_save {r : Reader} (h : r.Ok Q) (s : RState) : (r.save s).Ok Q := by
  refine ⟨by simp [Reader.save], ?_⟩
  intro f hf
  rcases List.mem_append.1 hf with hf | hf
  · exact h.2 f hf
  · rw [List.mem_singleton.1 hf]; exact h.1

theorem Reader.ok_add {r : Reader} (h : r.Ok Q) {c : Char} (hc : Q c) (s : RState) : (r.add c s).Ok Q := by
  refine ⟨?_, h.2⟩
  intro x hx
  rcases List.mem_append.1 hx with hx | hx
  · exact h.1 x hx
  · rw [List.mem_singleton.1 hx]; exact hc

theorem Reader.ok_goto {r : Reader} (h : r.Ok Q) (s : RState) : (r.goto s).Ok Q := h

theorem Reader.ok_start {r : Reader} (h : r.Ok Q) {c : Char} (hc : Q c) : (r.startFieldChar c).Ok Q := by
  unfold Reader.startFieldChar
  split
  · exact ok_save h _
  · split
    · exact ok_goto h _
    · split
      · exact ok_save h _
      · exact ok_add h hc _

theorem Reader.ok_char {r : Reader} (h : r.Ok Q) {c : Char} (hc : Q c) : (r.char c).Ok Q := by
  unfold Reader.char
  cases r.state <;> dsimp only
  · split
    · exact ok_goto h _
    · exact ok_start h hc
  · exact ok_start h hc
  · split
    · exact ok_save h _
    · split
      · exact ok_save h _
      · exact ok_add h hc _
  · split
    · exact ok_goto h _
    · exact ok_add h hc _
  · split
    · exact ok_add h hc _
    · split
      · exact ok_save h _
      · split
        · exact ok_save h _
        · exact ok_add h hc _
  · exact h

theorem Reader.ok_eol {r : Reader} (h : r.Ok Q) : r.eol.Ok Q := by
  unfold Reader.eol
  cases r.state <;> dsimp only
  · exact h
  · exact ok_save h _
  · exact ok_save h _
  · exact h
  · exact ok_save h _
  · exact ok_goto h _

theorem Reader.ok_line : ∀ (l : Str) (r : Reader), r.Ok Q → (∀ c ∈ l, Q c) → (l.foldl Reader.char r).Ok Q
  | [], _, h, _ => h
  | c :: l, r, h, hl => by
    rw [List.foldl_cons]
    exact Reader.ok_line l _ (ok_char h (hl c (by simp))) (fun x hx => hl x (List.mem_cons_of_mem _ hx))

theorem readRows_ok : ∀ (ls : List Str) (r : Reader), r.Ok Q → (∀ l ∈ ls, ∀ c ∈ l, Q c) →
    ∀ row ∈ readRows ls r, ∀ f ∈ row, ∀ c ∈ f, Q c
  | [], r, h, _, row, hr, f, hf => by
    unfold readRows at hr
    split at hr
    · rw [List.mem_singleton.1 hr] at hf
      rcases List.mem_append.1 hf with hf | hf
      · exact h.2 f hf
      · rw [List.mem_singleton.1 hf]; exact h.1
    · cases hr
  | l :: ls, r, h, hl, row, hr, f, hf => by
    unfold readRows at hr
    dsimp only at hr
    have h1 := Reader.ok_eol (Reader.ok_line l r h (hl l (by simp)))
    have hl' : ∀ x ∈ ls, ∀ c ∈ x, Q c := fun x hx => hl x (List.mem_cons_of_mem _ hx)
    split at hr
    · rcases List.mem_cons.1 hr with rfl | hr
      · exact h1.2 f hf
      · exact readRows_ok ls Reader.init ⟨by simp [Reader.init], by simp [Reader.init]⟩ hl' row hr f hf
    · exact readRows_ok ls _ h1 hl' row hr f hf
end

/-- The rows kept consist of texts with the property. -/
def Loop.Ok (Q : Str → Prop) (s : Loop) : Prop := (∀ r ∈ s.data, ∀ f ∈ r, Q f) ∧ ∀ n ∈ s.extracted, Q n

theorem headD_ok {Q : Str → Prop} (h0 : Q []) {row : List Str} (h : ∀ f ∈ row, Q f) : Q (row.headD []) := by
  cases row with
  | nil => exact h0
  | cons a l => exact h a (by simp)

theorem zip_ok {Q : Str → Prop} : ∀ (ns : List Str) (rs : List (List Str)), (∀ n ∈ ns, Q n) →
    (∀ r ∈ rs, ∀ f ∈ r, Q f) → ∀ r ∈ List.zipWith (fun n r => n :: r) ns rs, ∀ f ∈ r, Q f
  | [], _, _, _, r, hr, _, _ => by cases hr
  | _ :: _, [], _, _, r, hr, _, _ => by cases hr
  | n :: ns, x :: rs, h1, h2, r, hr, f, hf => by
    rcases List.mem_cons.1 (show r ∈ (n :: x) :: List.zipWith (fun n r => n :: r) ns rs from hr) with rfl | hr
    · rcases List.mem_cons.1 hf with rfl | hf
      · exact h1 _ (by simp)
      · exact h2 x (by simp) f hf
    · exact zip_ok ns rs (fun m hm => h1 m (List.mem_cons_of_mem _ hm))
        (fun y hy => h2 y (List.mem_cons_of_mem _ hy)) r hr f hf

theorem giveBack_ok {Q : Str → Prop} {s : Loop} (h : s.Ok Q) : s.giveBack.Ok Q := by
  refine ⟨?_, h.2⟩
  intro r hr f hf
  rcases List.mem_append.1 (show r ∈ List.zipWith (fun n r => n :: r) s.extracted s.data
      ++ s.data.drop s.extracted.length from hr) with hr | hr
  · exact zip_ok _ _ h.2 h.1 r hr f hf
  · exact h.1 r (List.mem_of_mem_drop hr) f hf

theorem takeName_ok {Q : Str → Prop} (h0 : Q []) {s : Loop} (h : s.Ok Q) {row : List Str}
    (hr : ∀ f ∈ row, Q f) :
    (s.takeName row).1.Ok Q ∧ Q (s.takeName row).2.1 ∧ ∀ f ∈ (s.takeName row).2.2, Q f := by
  have h1 := headD_ok h0 hr
  have h2 : ∀ f ∈ row.tail, Q f := fun f hf => hr f (List.mem_of_mem_tail hf)
  unfold Loop.takeName
  split
  · dsimp only
    split
    · split
      · refine ⟨giveBack_ok h, h1, ?_⟩
        intro f hf
        rcases List.mem_cons.1 hf with rfl | hf
        · exact h1
        · exact h2 f hf
      · exact ⟨h, h1, h2⟩
    · exact ⟨h, h1, h2⟩
  · exact ⟨h, h0, hr⟩

theorem row_ok {F : Type} {P : NumParse F} {Q : Str → Prop} (h0 : Q []) {s t : Loop} {i : Nat} {row : List Str}
    (h : s.row P i row = .ok t) (hs : s.Ok Q) (hr : ∀ f ∈ row, Q f) : t.Ok Q := by
  unfold Loop.row at h
  split at h
  · cases h
  · unfold Loop.keep at h
    dsimp only at h
    split at h
    · cases h
    · obtain ⟨a1, a2, a3⟩ := takeName_ok h0 hs hr
      obtain rfl := Except.ok.inj h
      refine ⟨?_, ?_⟩
      · intro r hr f hf
        rcases List.mem_append.1 hr with hr | hr
        · exact a1.1 r hr f hf
        · rw [List.mem_singleton.1 hr] at hf; exact a3 f hf
      · intro n hn
        dsimp only at hn
        split at hn
        · rcases List.mem_append.1 hn with hn | hn
          · exact a1.2 n hn
          · rw [List.mem_singleton.1 hn]; exact a2
        · exact a1.2 n hn

theorem rows_ok {F : Type} {P : NumParse F} {Q : Str → Prop} (h0 : Q []) :
    ∀ (rows : List (List Str)) (s t : Loop) (i : Nat), Loop.rows P s i rows = .ok t → s.Ok Q →
    (∀ r ∈ rows, ∀ f ∈ r, Q f) → t.Ok Q
  | [], s, t, i, h, hs, _ => by
    obtain rfl := Except.ok.inj h
    exact hs
  | r :: rs, s, t, i, h, hs, hr => by
    unfold Loop.rows at h
    cases hx : s.row P i r with
    | error e => simp only [hx, bind, Except.bind] at h; cases h
    | ok s1 =>
      simp only [hx, bind, Except.bind] at h
      exact rows_ok h0 rs s1 t (i + 1) h (row_ok h0 hx hs (hr r (by simp)))
        (fun x hx => hr x (List.mem_cons_of_mem _ hx))

/-- A converted string is the text itself. -/
theorem convertCell_str {F : Type} {P : NumParse F} {c : Col} {v s : Str} (h : convertCell P c v = .ok (.str s)) :
    s = v := by
  unfold convertCell at h
  split at h
  · split at h
    · cases h
    · split at h
      · cases h
      · cases hi : P.asInt v <;> simp [hi, orValueError, bind, Except.bind, pure, Except.pure] at h
      · cases hi : P.asFloat v <;> simp [hi, orValueError, bind, Except.bind, pure, Except.pure] at h
      · cases h; rfl
  · cases h; rfl

theorem convertRow_str {F : Type} {P : NumParse F} {Q : Str → Prop} : ∀ (cs : List Col) (r : List Str)
    (out : List (Cell F)), convertRow P cs r = .ok out → (∀ f ∈ r, Q f) → ∀ s, Cell.str s ∈ out → Q s
  | [], [], out, h, _, s, hs => by
    obtain rfl := Except.ok.inj h
    cases hs
  | _ :: _, [], out, h, _, s, hs => by
    obtain rfl := Except.ok.inj h
    cases hs
  | [], v :: vs, out, h, hq, s, hs => by
    unfold convertRow at h
    cases hx : convertRow P [] vs with
    | error e => simp only [hx, bind, Except.bind] at h; cases h
    | ok x =>
      simp only [hx, bind, Except.bind, pure, Except.pure] at h
      obtain rfl := Except.ok.inj h
      rcases List.mem_cons.1 hs with hs | hs
      · cases hs; exact hq _ (by simp)
      · exact convertRow_str [] vs x hx (fun f hf => hq f (List.mem_cons_of_mem _ hf)) s hs
  | c :: cs, v :: vs, out, h, hq, s, hs => by
    unfold convertRow at h
    cases hy : convertCell P c v with
    | error e => simp only [hy, bind, Except.bind] at h; cases h
    | ok y =>
      cases hx : convertRow P cs vs with
      | error e => simp only [hy, hx, bind, Except.bind] at h; cases h
      | ok x =>
        simp only [hy, hx, bind, Except.bind, pure, Except.pure] at h
        obtain rfl := Except.ok.inj h
        rcases List.mem_cons.1 hs with hs | hs
        · rw [← hs] at hy
          rw [convertCell_str hy]
          exact hq _ (by simp)
        · exact convertRow_str cs vs x hx (fun f hf => hq f (List.mem_cons_of_mem _ hf)) s hs

theorem convertRows_str {F : Type} {P : NumParse F} {Q : Str → Prop} (cs : List Col) : ∀ (rs : List (List Str))
    (out : List (List (Cell F))), convertRows P cs rs = .ok out → (∀ r ∈ rs, ∀ f ∈ r, Q f) →
    ∀ r ∈ out, ∀ s, Cell.str s ∈ r → Q s
  | [], out, h, _, r, hr, _, _ => by
    obtain rfl := Except.ok.inj h
    cases hr
  | v :: vs, out, h, hq, r, hr, s, hs => by
    unfold convertRows at h
    cases hy : convertRow P cs v with
    | error e => simp only [hy, bind, Except.bind] at h; cases h
    | ok y =>
      cases hx : convertRows P cs vs with
      | error e => simp only [hy, hx, bind, Except.bind] at h; cases h
      | ok x =>
        simp only [hy, hx, bind, Except.bind, pure, Except.pure] at h
        obtain rfl := Except.ok.inj h
        rcases List.mem_cons.1 hr with rfl | hr
        · exact convertRow_str cs v _ hy (hq v (by simp)) s hs
        · exact convertRows_str cs vs x hx (fun f hf => hq f (List.mem_cons_of_mem _ hf)) r hr s hs

theorem finish_str {F : Type} {P : NumParse F} {Q : Str → Prop} {e : Bool} {f : NArg} {s : Loop}
    {out : Loaded F} (h : s.finish P e f = .ok out) (hs : s.Ok Q) : ∀ r ∈ out.data, ∀ t, Cell.str t ∈ r → Q t := by
  unfold Loop.finish at h
  dsimp only at h
  split at h
  · cases hc : convertRows P ((List.map (Col.final e) (s.cols.getD [])).take (s.firstLen.getD 0 - 1))
      (s.data.map List.dropLast) with
    | error x => simp only [hc, bind, Except.bind] at h; cases h
    | ok d =>
      simp only [hc, bind, Except.bind, pure, Except.pure] at h
      obtain rfl := Except.ok.inj h
      refine convertRows_str _ _ d hc ?_
      intro r hr g hg
      obtain ⟨r', hr', rfl⟩ := List.mem_map.1 hr
      exact hs.1 r' hr' g (List.dropLast_subset _ hg)
  · cases hc : convertRows P (List.map (Col.final e) (s.cols.getD [])) s.data with
    | error x => simp only [hc, bind, Except.bind] at h; cases h
    | ok d =>
      simp only [hc, bind, Except.bind, pure, Except.pure] at h
      obtain rfl := Except.ok.inj h
      exact convertRows_str _ _ d hc hs.1

theorem start_ok {Q : Str → Prop} {p f : NArg} {b : Bool} {rs rest : List (List Str)} {s : Loop}
    (h : startLoop p f b rs = .ok (s, rest)) (hq : ∀ r ∈ rs, ∀ x ∈ r, Q x) :
    s.Ok Q ∧ ∀ r ∈ rest, ∀ x ∈ r, Q x := by
  have triv : ∀ r ∈ ([] : List (List Str)), ∀ x ∈ r, Q x := by intro r hr; cases hr
  have triv2 : ∀ r ∈ ([] : List Str), Q r := by intro r hr; cases hr
  unfold startLoop at h
  split at h
  · split at h
    · cases h
    · obtain ⟨rfl, rfl⟩ := Prod.mk.inj (Except.ok.inj h)
      exact ⟨⟨triv, triv2⟩, fun r hr => hq r (List.mem_cons_of_mem _ hr)⟩
  · obtain ⟨rfl, rfl⟩ := Prod.mk.inj (Except.ok.inj h)
    exact ⟨⟨triv, triv2⟩, hq⟩
  · obtain ⟨rfl, rfl⟩ := Prod.mk.inj (Except.ok.inj h)
    exact ⟨⟨triv, triv2⟩, hq⟩

/-- C37, violated. No string loaded from any file contains a carriage return: a string with one is never
read back. -/
theorem C37_carriage_return_violated {F : Type} {P : NumParse F} {p f : NArg} {e : Bool} {text : Str}
    {out : Loaded F} (h : loadCsv P p f e text = .ok out) :
    ∀ r ∈ out.data, ∀ s, Cell.str s ∈ r → '\r' ∉ s := by
  unfold loadCsv at h
  cases ha : advancePastComments (splitLines (universal false text)) with
  | error x => simp only [ha, bind, Except.bind] at h; cases h
  | ok lines =>
    simp only [ha, bind, Except.bind] at h
    have hl : ∀ l ∈ lines, ∀ c ∈ l, c ≠ '\r' := by
      rintro l hl c hc rfl
      exact universal_noCr false text (splitLines_mem _ l (advance_mem _ _ ha l hl) _ hc)
    have hrec : ∀ r ∈ readRows (dropBlank lines) Reader.init, ∀ x ∈ r, '\r' ∉ x := by
      intro r hr x hx hcr
      exact readRows_ok (Q := fun c => c ≠ '\r') (dropBlank lines) Reader.init
        ⟨by simp [Reader.init], by simp [Reader.init]⟩
        (fun l hl' => hl l (List.mem_filter.1 hl').1) r hr x hx _ hcr rfl
    generalize checkNames P p f (readRows lines Reader.init) = n at h
    cases hst : startLoop n.1 n.2.1 n.2.2 (readRows (dropBlank lines) Reader.init) with
    | error x => simp only [hst] at h; cases h
    | ok st =>
      obtain ⟨s0, rest⟩ := st
      simp only [hst] at h
      obtain ⟨b1, b2⟩ := start_ok hst hrec
      cases hlp : Loop.rows P s0 0 rest with
      | error x => simp only [hlp] at h; cases h
      | ok s =>
        simp only [hlp] at h
        exact finish_str h (rows_ok (Q := fun x => '\r' ∉ x) (by simp) rest s0 s 0 hlp b1 b2)

/-- Such a text becomes a line break, and two points. -/
example : again [[.str "a\rb".toList]] = .ok ⟨[[.str "a".toList], [.str "b".toList]], none, none⟩ := by
  decide +kernel

/-! ### Names given by the user -/

/-- The names given are used. -/
example : loadCsv demo (.given [some "p".toList, some "q".toList]) (.given [some "x".toList, none]) true
      "1,2\n3,4\n".toList
    = .ok ⟨[[.int 1, .int 2], [.int 3, .int 4]], some [some "p".toList, some "q".toList],
        some [some "x".toList, none]⟩ := by decide +kernel

/-- A file with one row: the names are lost. -/
example : loadCsv demo (.given [some "p".toList]) (.given [some "x".toList, some "y".toList]) true
      "1,2\n".toList = .ok ⟨[[.int 1, .int 2]], none, none⟩ := by decide +kernel

/-- C61, violated. With point names whose number is not that of the points the result has the names `a`,
`l` and `l`, and no error is raised by the reader. -/
theorem C61_wrong_number_violated :
    loadCsv demo (.given [some "p".toList, some "q".toList]) (.given [some "x".toList, some "y".toList]) true
      "1,2\n3,4\n5,6\n".toList
    = .ok ⟨[[.int 1, .int 2], [.int 3, .int 4], [.int 5, .int 6]],
        some [some ['a'], some ['l'], some ['l']], some [some "x".toList, some "y".toList]⟩ := by decide +kernel

/-- C60: a column in two orders. -/
example : (["2".toList, [], "1.0".toList].foldl (Col.next demo) (Col.first demo "3".toList)) = .conv .float ∧
    ([[], "3".toList, "2".toList].foldl (Col.next demo) (Col.first demo "1.0".toList)) = .conv .float := by
  decide +kernel

end Nimble.Csv
