import Verif.Model.Csv

/-!
# C37: the text of csv files
-/

namespace Nimble.Csv

/-! ### Specification -/

/-- A text which the reader gives back as written: no carriage return; a text with a comma has no empty
line; a text without a comma has no line break and does not begin with a quote. -/
structure SafeCell (s : Str) : Prop where
  noCr : '\r' ∉ s
  quoted : ',' ∈ s → ¬ ['\n', '\n'] <:+: s
  plain : ',' ∉ s → '\n' ∉ s ∧ s.head? ≠ some '"'

/-- A row of such texts, which is not a single empty text. -/
structure SafeRow (r : List Str) : Prop where
  nonempty : r ≠ []
  notBlank : r ≠ [[]]
  cells : ∀ c ∈ r, SafeCell c

/-- The file does not begin with a comment: the first text has a comma or does not begin with `#`. -/
def NotComment (rows : List (List Str)) : Prop :=
  ∀ r c, rows.head? = some r → r.head? = some c → ',' ∈ c ∨ c.head? ≠ some '#'

/-! ### Lines -/

theorem universal_id : ∀ (t : Str), '\r' ∉ t → universal false t = t
  | [], _ => rfl
  | c :: t, h => by
    have h1 : c ≠ '\r' := fun e => h (by simp [e])
    have ih := universal_id t (fun hm => h (List.mem_cons_of_mem _ hm))
    unfold universal
    rw [if_neg h1, ih]
    by_cases e : c = '\n'
    · rw [if_pos e, e]; rfl
    · rw [if_neg e]

theorem splitLines_ne_nil {c : Char} {t : Str} : splitLines (c :: t) ≠ [] := by
  unfold splitLines
  split
  · simp
  · cases splitLines t <;> simp [consLine]

theorem readRows_char {c : Char} (hc : c ≠ '\n') {t : Str} (ht : t ≠ []) (r : Reader) :
    readRows (splitLines (c :: t)) r = readRows (splitLines t) (r.char c) := by
  obtain ⟨d, u, rfl⟩ := List.exists_cons_of_ne_nil ht
  rw [splitLines, if_neg hc]
  cases h : splitLines (d :: u) with
  | nil => exact absurd h splitLines_ne_nil
  | cons l ls => rfl

theorem readRows_nl (t : Str) (r : Reader) :
    readRows (splitLines ('\n' :: t)) r
      = if ((r.char '\n').eol).state = .startRecord
        then ((r.char '\n').eol).fields :: readRows (splitLines t) Reader.init
        else readRows (splitLines t) ((r.char '\n').eol) := by
  rw [splitLines, if_pos rfl]
  rfl

/-- No empty line; `b`: at the beginning of a line. -/
def noBlank : Bool → Str → Prop
  | _, [] => True
  | b, c :: t => ¬ (b = true ∧ c = '\n') ∧ noBlank (decide (c = '\n')) t

theorem noBlank_lines : ∀ (t : Str) (b : Bool), noBlank b t →
    (∀ l ∈ (splitLines t).tail, l.head? ≠ some '\n') ∧
    (b = true → ∀ l ∈ splitLines t, l.head? ≠ some '\n')
  | [], _, _ => by simp [splitLines]
  | c :: t, b, h => by
    obtain ⟨h1, h2⟩ := h
    obtain ⟨i1, i2⟩ := noBlank_lines t _ h2
    unfold splitLines
    by_cases e : c = '\n'
    · rw [if_pos e]
      have i2 := i2 (by simpa using e)
      refine ⟨fun l hl => i2 l (by simpa using hl), fun hb => absurd ⟨hb, e⟩ h1⟩
    · rw [if_neg e]
      cases hs : splitLines t with
      | nil =>
        simp only [consLine]
        refine ⟨by simp, fun _ l hl => ?_⟩
        rw [List.mem_singleton] at hl
        subst hl
        simpa using e
      | cons l ls =>
        rw [hs] at i1
        simp only [consLine]
        refine ⟨fun x hx => i1 x hx, fun _ x hx => ?_⟩
        rcases List.mem_cons.1 hx with rfl | hx
        · simpa using e
        · exact i1 x hx

theorem dropBlank_id {t : Str} (h : noBlank true t) : dropBlank (splitLines t) = splitLines t := by
  unfold dropBlank
  rw [List.filter_eq_self]
  intro l hl
  simpa using (noBlank_lines t true h).2 rfl l hl

/-- At the beginning of a line after `s`? -/
def endsLine : Bool → Str → Bool
  | b, [] => b
  | _, c :: s => endsLine (decide (c = '\n')) s

theorem noBlank_append : ∀ (s t : Str) (b : Bool),
    noBlank b (s ++ t) ↔ noBlank b s ∧ noBlank (endsLine b s) t
  | [], t, b => by simp [noBlank, endsLine]
  | c :: s, t, b => by
    rw [List.cons_append, noBlank, noBlank, endsLine, noBlank_append s t, and_assoc]

theorem endsLine_append : ∀ (s t : Str) (b : Bool), endsLine b (s ++ t) = endsLine (endsLine b s) t
  | [], _, _ => rfl
  | c :: s, t, b => by rw [List.cons_append, endsLine, endsLine, endsLine_append s t]

theorem noBlank_plain : ∀ (s : Str) (b : Bool), '\n' ∉ s → noBlank b s ∧ (s ≠ [] → endsLine b s = false)
  | [], b, _ => ⟨trivial, fun h => absurd rfl h⟩
  | c :: s, b, h => by
    have hc : c ≠ '\n' := fun e => h (by simp [e])
    have ih := noBlank_plain s (decide (c = '\n')) (fun hm => h (List.mem_cons_of_mem _ hm))
    refine ⟨⟨fun hb => hc hb.2, ih.1⟩, fun _ => ?_⟩
    rw [endsLine]
    by_cases e : s = []
    · subst e; simp [endsLine, hc]
    · exact ih.2 e

theorem noBlank_doubled : ∀ (s : Str) (b : Bool), (b = true → s.head? ≠ some '\n') →
    ¬ ['\n', '\n'] <:+: s → noBlank b (doubleQuotes s)
  | [], _, _, _ => trivial
  | c :: s, b, hb, h => by
    have hs : ¬ ['\n', '\n'] <:+: s := fun hi => h (hi.trans (List.infix_cons (List.infix_refl s)))
    unfold doubleQuotes
    by_cases e : c = '"'
    · rw [if_pos e]
      refine ⟨by simp, by simp, ?_⟩
      exact noBlank_doubled s _ (by simp) hs
    · rw [if_neg e]
      refine ⟨fun hh => hb hh.1 (by simp [hh.2]), noBlank_doubled s _ ?_ hs⟩
      intro hc hn
      have hc : c = '\n' := by simpa using hc
      cases s with
      | nil => simp at hn
      | cons d s =>
        have hd : d = '\n' := by simpa using hn
        subst hc hd
        exact h ⟨[], s, by simp⟩

theorem noBlank_cell {s : Str} (h : SafeCell s) (b : Bool) :
    noBlank b (csvCommaFormat s) ∧ (s ≠ [] → endsLine b (csvCommaFormat s) = false) := by
  unfold csvCommaFormat
  by_cases hc : ',' ∈ s
  · rw [if_pos hc]
    refine ⟨⟨by simp, ?_⟩, fun _ => ?_⟩
    · rw [noBlank_append]
      exact ⟨noBlank_doubled s _ (by simp) (h.quoted hc), by simp [noBlank]⟩
    · rw [endsLine, endsLine_append]; rfl
  · rw [if_neg hc]
    exact noBlank_plain s b (h.plain hc).1

theorem noBlank_join : ∀ (cells : List Str) (b : Bool), (∀ c ∈ cells, SafeCell c) →
    noBlank b (joinComma (cells.map csvCommaFormat)) ∧
    (cells ≠ [] → (b = true → cells ≠ [[]]) → endsLine b (joinComma (cells.map csvCommaFormat)) = false)
  | [], b, _ => ⟨trivial, fun h => absurd rfl h⟩
  | [a], b, h => by
    have := noBlank_cell (h a (by simp)) b
    refine ⟨this.1, fun _ hb => ?_⟩
    by_cases e : a = []
    · subst e
      cases b with
      | true => exact absurd rfl (hb rfl)
      | false => rfl
    · exact this.2 e
  | a :: a2 :: l, b, h => by
    have h1 := noBlank_cell (h a (by simp)) b
    have ih := noBlank_join (a2 :: l) false (fun c hc => h c (List.mem_cons_of_mem _ hc))
    have hj : joinComma ((a :: a2 :: l).map csvCommaFormat)
        = csvCommaFormat a ++ ',' :: joinComma ((a2 :: l).map csvCommaFormat) := rfl
    rw [hj, noBlank_append, endsLine_append]
    refine ⟨⟨h1.1, by simp, ?_⟩, fun _ _ => ?_⟩
    · exact ih.1
    · exact ih.2 (by simp) (by simp)

theorem noBlank_line {cells : List Str} (h : SafeRow cells) :
    noBlank true (csvLine cells) ∧ endsLine true (csvLine cells) = true := by
  have h1 := noBlank_join cells true h.cells
  have h2 := h1.2 h.nonempty (fun _ => h.notBlank)
  unfold csvLine
  rw [noBlank_append, endsLine_append, h2]
  exact ⟨⟨h1.1, by simp [noBlank]⟩, by simp [endsLine]⟩

theorem noBlank_text : ∀ (rows : List (List Str)), (∀ r ∈ rows, SafeRow r) →
    noBlank true (rows.flatMap csvLine)
  | [], _ => trivial
  | r :: rs, h => by
    have h1 := noBlank_line (h r (by simp))
    rw [List.flatMap_cons, noBlank_append, h1.2]
    exact ⟨h1.1, noBlank_text rs (fun x hx => h x (List.mem_cons_of_mem _ hx))⟩

/-! ### No carriage returns are written -/

theorem doubleQuotes_mem {c : Char} : ∀ {s : Str}, c ∈ doubleQuotes s → c ∈ s
  | [], h => h
  | d :: s, h => by
    unfold doubleQuotes at h
    by_cases e : d = '"'
    · rw [if_pos e] at h
      rcases List.mem_cons.1 h with h | h
      · simp [h, e]
      · rcases List.mem_cons.1 h with h | h
        · simp [h, e]
        · exact List.mem_cons_of_mem _ (doubleQuotes_mem h)
    · rw [if_neg e] at h
      rcases List.mem_cons.1 h with h | h
      · simp [h]
      · exact List.mem_cons_of_mem _ (doubleQuotes_mem h)

theorem mem_csvCommaFormat {c : Char} {s : Str} (h : c ∈ csvCommaFormat s) : c ∈ s ∨ c = '"' := by
  unfold csvCommaFormat at h
  by_cases e : ',' ∈ s
  · rw [if_pos e] at h
    simp only [List.mem_cons, List.mem_append, List.not_mem_nil, or_false] at h
    rcases h with h | h | h
    · exact Or.inr h
    · exact Or.inl (doubleQuotes_mem h)
    · exact Or.inr h
  · rw [if_neg e] at h; exact Or.inl h

theorem mem_joinComma {c : Char} : ∀ {l : List Str}, c ∈ joinComma l → c = ',' ∨ ∃ s ∈ l, c ∈ s
  | [], h => by simp [joinComma] at h
  | [a], h => Or.inr ⟨a, by simp, h⟩
  | a :: b :: l, h => by
    rw [joinComma, List.mem_append, List.mem_cons] at h
    rcases h with h | h | h
    · exact Or.inr ⟨a, by simp, h⟩
    · exact Or.inl h
    · rcases mem_joinComma h with h | ⟨s, hs, hc⟩
      · exact Or.inl h
      · exact Or.inr ⟨s, List.mem_cons_of_mem _ hs, hc⟩

theorem noCr_text {rows : List (List Str)} (h : ∀ r ∈ rows, SafeRow r) : '\r' ∉ rows.flatMap csvLine := by
  intro hm
  obtain ⟨r, hr, hm⟩ := List.mem_flatMap.1 hm
  unfold csvLine at hm
  rcases List.mem_append.1 hm with hm | hm
  · rcases mem_joinComma hm with e | ⟨s, hs, hc⟩
    · simp at e
    · obtain ⟨c, hc', rfl⟩ := List.mem_map.1 hs
      rcases mem_csvCommaFormat hc with hc | e
      · exact ((h r hr).cells c hc').noCr hc
      · simp at e
  · simp at hm

/-! ### Reading -/

theorem read_plain : ∀ (s : Str) (rest : Str), rest ≠ [] → '\n' ∉ s → '\r' ∉ s → ',' ∉ s →
    ∀ (f : Str) (fs : List Str),
    readRows (splitLines (s ++ rest)) ⟨.inField, f, fs⟩ = readRows (splitLines rest) ⟨.inField, f ++ s, fs⟩
  | [], rest, _, _, _, _, f, fs => by simp
  | c :: s, rest, hr, h1, h2, h3, f, fs => by
    have n1 : c ≠ '\n' := fun e => h1 (by simp [e])
    have n2 : c ≠ '\r' := fun e => h2 (by simp [e])
    have n3 : c ≠ ',' := fun e => h3 (by simp [e])
    rw [List.cons_append, readRows_char n1 (by simp [hr])]
    have : Reader.char ⟨.inField, f, fs⟩ c = ⟨.inField, f ++ [c], fs⟩ := by
      simp [Reader.char, n1, n2, n3, Reader.add]
    rw [this, read_plain s rest hr (fun hm => h1 (List.mem_cons_of_mem _ hm))
      (fun hm => h2 (List.mem_cons_of_mem _ hm)) (fun hm => h3 (List.mem_cons_of_mem _ hm))]
    simp

theorem read_quoted : ∀ (s : Str) (rest : Str), rest ≠ [] → ∀ (f : Str) (fs : List Str),
    readRows (splitLines (doubleQuotes s ++ '"' :: rest)) ⟨.inQuoted, f, fs⟩
      = readRows (splitLines rest) ⟨.quoteInQuoted, f ++ s, fs⟩
  | [], rest, hr, f, fs => by
    rw [doubleQuotes, List.nil_append, readRows_char (by decide) hr]
    simp [Reader.char, Reader.goto]
  | c :: s, rest, hr, f, fs => by
    unfold doubleQuotes
    by_cases e : c = '"'
    · rw [if_pos e, List.cons_append, List.cons_append, readRows_char (by decide) (by simp),
        readRows_char (by decide) (by simp)]
      have : Reader.char (Reader.char ⟨.inQuoted, f, fs⟩ '"') '"' = ⟨.inQuoted, f ++ ['"'], fs⟩ := rfl
      rw [this, read_quoted s rest hr, e]
      simp
    · rw [if_neg e, List.cons_append]
      have hch : Reader.char ⟨.inQuoted, f, fs⟩ c = ⟨.inQuoted, f ++ [c], fs⟩ := by
        simp [Reader.char, e, Reader.add]
      by_cases hn : c = '\n'
      · subst hn
        rw [readRows_nl, hch]
        have : Reader.eol ⟨.inQuoted, f ++ ['\n'], fs⟩ = ⟨.inQuoted, f ++ ['\n'], fs⟩ := rfl
        rw [this, if_neg (by simp), read_quoted s rest hr]
        simp
      · rw [readRows_char hn (by simp), hch, read_quoted s rest hr]
        simp

/-- The state at the beginning of a field. -/
def AtField (r : Reader) : Prop := (r.state = .startField ∨ r.state = .startRecord) ∧ r.field = []

theorem read_cell_comma {s rest : Str} (h : SafeCell s) (hr : rest ≠ []) {r : Reader} (ha : AtField r) :
    readRows (splitLines (csvCommaFormat s ++ ',' :: rest)) r
      = readRows (splitLines rest) ⟨.startField, [], r.fields ++ [s]⟩ := by
  obtain ⟨st, f, fs⟩ := r
  obtain ⟨h1, h2⟩ := ha
  simp only at h1 h2
  subst h2
  unfold csvCommaFormat
  by_cases hc : ',' ∈ s
  · rw [if_pos hc, List.cons_append, readRows_char (by decide) (by simp)]
    have : Reader.char ⟨st, [], fs⟩ '"' = ⟨.inQuoted, [], fs⟩ := by
      rcases h1 with rfl | rfl <;> rfl
    rw [this, List.append_assoc, List.singleton_append, read_quoted s _ (by simp), readRows_char (by decide) hr]
    simp [Reader.char, Reader.save]
  · rw [if_neg hc]
    obtain ⟨hp1, hp2⟩ := h.plain hc
    cases s with
    | nil =>
      rw [List.nil_append, readRows_char (by decide) hr]
      have : Reader.char ⟨st, [], fs⟩ ',' = ⟨.startField, [], fs ++ [[]]⟩ := by
        rcases h1 with rfl | rfl <;> rfl
      rw [this]
    | cons c s =>
      have n1 : c ≠ '\n' := fun e => hp1 (by simp [e])
      have n2 : c ≠ '\r' := fun e => h.noCr (by simp [e])
      have n3 : c ≠ ',' := fun e => hc (by simp [e])
      have n4 : c ≠ '"' := fun e => hp2 (by simp [e])
      rw [List.cons_append, readRows_char n1 (by simp)]
      have : Reader.char ⟨st, [], fs⟩ c = ⟨.inField, [c], fs⟩ := by
        rcases h1 with rfl | rfl <;>
          simp [Reader.char, Reader.startFieldChar, n1, n2, n3, n4, Reader.add]
      rw [this, read_plain s _ (by simp) (fun hm => hp1 (List.mem_cons_of_mem _ hm))
        (fun hm => h.noCr (List.mem_cons_of_mem _ hm)) (fun hm => hc (List.mem_cons_of_mem _ hm)),
        readRows_char (by decide) hr]
      simp [Reader.char, Reader.save]

theorem read_cell_nl {s rest : Str} (h : SafeCell s) {r : Reader} (ha : AtField r)
    (hb : r.state = .startRecord → s ≠ []) :
    readRows (splitLines (csvCommaFormat s ++ '\n' :: rest)) r
      = (r.fields ++ [s]) :: readRows (splitLines rest) Reader.init := by
  obtain ⟨st, f, fs⟩ := r
  obtain ⟨h1, h2⟩ := ha
  simp only at h1 h2 hb
  subst h2
  unfold csvCommaFormat
  by_cases hc : ',' ∈ s
  · rw [if_pos hc, List.cons_append, readRows_char (by decide) (by simp)]
    have : Reader.char ⟨st, [], fs⟩ '"' = ⟨.inQuoted, [], fs⟩ := by
      rcases h1 with rfl | rfl <;> rfl
    rw [this, List.append_assoc, List.singleton_append, read_quoted s _ (by simp), readRows_nl]
    simp [Reader.char, Reader.save, Reader.eol, Reader.goto]
  · rw [if_neg hc]
    obtain ⟨hp1, hp2⟩ := h.plain hc
    cases s with
    | nil =>
      rcases h1 with rfl | rfl
      · rw [List.nil_append, readRows_nl]
        simp [Reader.char, Reader.save, Reader.eol, Reader.goto, Reader.startFieldChar]
      · exact absurd rfl (hb rfl)
    | cons c s =>
      have n1 : c ≠ '\n' := fun e => hp1 (by simp [e])
      have n2 : c ≠ '\r' := fun e => h.noCr (by simp [e])
      have n3 : c ≠ ',' := fun e => hc (by simp [e])
      have n4 : c ≠ '"' := fun e => hp2 (by simp [e])
      rw [List.cons_append, readRows_char n1 (by simp)]
      have : Reader.char ⟨st, [], fs⟩ c = ⟨.inField, [c], fs⟩ := by
        rcases h1 with rfl | rfl <;>
          simp [Reader.char, Reader.startFieldChar, n1, n2, n3, n4, Reader.add]
      rw [this, read_plain s _ (by simp) (fun hm => hp1 (List.mem_cons_of_mem _ hm))
        (fun hm => h.noCr (List.mem_cons_of_mem _ hm)) (fun hm => hc (List.mem_cons_of_mem _ hm)),
        readRows_nl]
      simp [Reader.char, Reader.save, Reader.eol, Reader.goto]

theorem read_row : ∀ (cells : List Str) (rest : Str) (r : Reader), AtField r → cells ≠ [] →
    (r.state = .startRecord → cells ≠ [[]]) → (∀ c ∈ cells, SafeCell c) →
    readRows (splitLines (csvLine cells ++ rest)) r
      = (r.fields ++ cells) :: readRows (splitLines rest) Reader.init
  | [], _, _, _, h, _, _ => absurd rfl h
  | [a], rest, r, ha, _, hb, hs => by
    have : csvLine [a] ++ rest = csvCommaFormat a ++ '\n' :: rest := by simp [csvLine, joinComma]
    rw [this]
    exact read_cell_nl (hs a (by simp)) ha (fun e h0 => hb e (by rw [h0]))
  | a :: b :: l, rest, r, ha, _, hb, hs => by
    have : csvLine (a :: b :: l) ++ rest = csvCommaFormat a ++ ',' :: (csvLine (b :: l) ++ rest) := by
      simp [csvLine, joinComma]
    rw [this, read_cell_comma (hs a (by simp)) (by simp [csvLine]) ha,
      read_row (b :: l) rest _ ⟨Or.inl rfl, rfl⟩ (by simp) (by simp)
        (fun c hc => hs c (List.mem_cons_of_mem _ hc))]
    simp

theorem read_rows : ∀ (rows : List (List Str)), (∀ r ∈ rows, SafeRow r) →
    readRows (splitLines (rows.flatMap csvLine)) Reader.init = rows
  | [], _ => rfl
  | r :: rs, h => by
    have h1 := h r (by simp)
    rw [List.flatMap_cons, read_row r _ Reader.init ⟨Or.inr rfl, rfl⟩ h1.nonempty (fun _ => h1.notBlank) h1.cells,
      read_rows rs (fun x hx => h x (List.mem_cons_of_mem _ hx))]
    rfl

theorem head_splitLines {c : Char} {t : Str} : ∃ l ls, splitLines (c :: t) = (c :: l) :: ls := by
  unfold splitLines
  by_cases e : c = '\n'
  · rw [if_pos e, e]; exact ⟨_, _, rfl⟩
  · rw [if_neg e]
    cases splitLines t with
    | nil => exact ⟨_, _, rfl⟩
    | cons l ls => exact ⟨_, _, rfl⟩

theorem head_csvLine {r : List Str} (h : SafeRow r) (hc : ∀ c, r.head? = some c → ',' ∈ c ∨ c.head? ≠ some '#') :
    ∃ c t, csvLine r = c :: t ∧ c ≠ '#' ∧ c ≠ '\n' := by
  obtain ⟨a, l, rfl⟩ := List.exists_cons_of_ne_nil h.nonempty
  have ha := h.cells a (by simp)
  have hca := hc a rfl
  have hline : ∃ t, csvLine (a :: l) = csvCommaFormat a ++ t ∧ (a = [] → t.head? = some ',') := by
    cases l with
    | nil => exact ⟨['\n'], rfl, fun e => absurd (by rw [e]) h.notBlank⟩
    | cons b l => exact ⟨',' :: csvLine (b :: l), by simp [csvLine, joinComma], fun _ => rfl⟩
  obtain ⟨t, ht, hnil⟩ := hline
  rw [ht]
  unfold csvCommaFormat
  by_cases hm : ',' ∈ a
  · rw [if_pos hm]
    exact ⟨'"', _, rfl, by decide, by decide⟩
  · rw [if_neg hm]
    cases a with
    | nil =>
      have := hnil rfl
      cases t with
      | nil => simp at this
      | cons c t =>
        have : c = ',' := by simpa using this
        exact ⟨c, t, rfl, by rw [this]; decide, by rw [this]; decide⟩
    | cons c a =>
      refine ⟨c, a ++ t, rfl, ?_, ?_⟩
      · intro e
        rcases hca with h' | h'
        · exact hm h'
        · exact h' (by simp [e])
      · intro e
        exact (ha.plain hm).1 (by simp [e])

/-- The lines of a safe table are read back, and neither the skipping of comments nor that of empty
lines loses any. -/
theorem read_table {rows : List (List Str)} (h0 : rows ≠ []) (hs : ∀ r ∈ rows, SafeRow r)
    (hc : NotComment rows) :
    ∃ lines, advancePastComments (splitLines (universal false (rows.flatMap csvLine))) = .ok lines ∧
      readRows lines Reader.init = rows ∧ readRows (dropBlank lines) Reader.init = rows := by
  rw [universal_id _ (noCr_text hs)]
  refine ⟨splitLines (rows.flatMap csvLine), ?_, read_rows rows hs, ?_⟩
  · obtain ⟨r, rs, rfl⟩ := List.exists_cons_of_ne_nil h0
    obtain ⟨c, t, ht, h1, h2⟩ := head_csvLine (hs r (by simp)) (fun c hh => hc r c rfl hh)
    rw [List.flatMap_cons, ht, List.cons_append]
    obtain ⟨l, ls, hl⟩ := head_splitLines (c := c) (t := t ++ List.flatMap csvLine rs)
    rw [hl, advancePastComments]
    have : skipped (c :: l) = false := by simp [skipped, h1, h2]
    rw [this]
    rfl
  · rw [dropBlank_id (noBlank_text rows hs), read_rows rows hs]

end Nimble.Csv
