import Verif.Model.TableString
import Verif.Lemmas.Py

/-!
# C110: tables in text

The specification speaks of lines, of fields in them, and of the widths of the columns.
-/

namespace Nimble
namespace TableText

/-! ## Specification -/

/-- `f` is the text `c` with blanks around it to the width `w`, at the side `k` says. -/
def Field (k : Justify) (w : Nat) (c f : Txt) : Prop :=
  f.length = w ∧ ∃ a b, f = List.replicate a ' ' ++ c ++ List.replicate b ' ' ∧
    match k with
    | .left => a = 0
    | .right => b = 0
    | .center => a ≤ b + 1 ∧ b ≤ a + 1

/-- `line` has the cells in fields of the widths `ws`, with `sep` between them. -/
def Line (k : Nat → Justify) (ws : List Nat) (sep : Txt) (cells : List Txt) (line : Txt) : Prop :=
  ∃ fields : List Txt, fields.length = ws.length ∧ line = List.intercalate sep fields ∧
    ∀ (j w : Nat) (c f : Txt), ws[j]? = some w → cells[j]? = some c → fields[j]? = some f → Field (k j) w c f

/-- `ws` are the least widths, at least 1, in which all cells of the rows have room. -/
def Widths (ws : List Nat) (rows : List (List Txt)) : Prop :=
  ∀ (j w : Nat), ws[j]? = some w → 1 ≤ w ∧ (∀ row ∈ rows, ∀ c : Txt, row[j]? = some c → c.length ≤ w) ∧
    (w = 1 ∨ ∃ row ∈ rows, ∃ c : Txt, row[j]? = some c ∧ c.length = w)

/-- The side for the cells of line `i`, with or without a line of headers. -/
def Side (o : Opts) (header : Bool) (i j : Nat) : Justify :=
  match header, i, j with
  | true, 0, _ => o.colHead
  | _, _, 0 => if o.rowHeader then o.rowHead else o.colValue
  | _, _, _ => o.colValue

/-- The lines of the table, with the headers as the first. -/
def allRows (headers : Option (List Txt)) (t : List (List Txt)) : List (List Txt) := headers.toList ++ t

/-! ## Lemmas -/

theorem before_le (len w : Nat) : before len w ≤ w - len := by
  unfold before; split <;> omega

theorem field_justify (k : Justify) {w : Nat} {c : Txt} (h : c.length ≤ w) : Field k w c (justify k c w) := by
  have hb := before_le c.length w
  cases k with
  | left =>
    refine ⟨by simp [justify]; omega, 0, w - c.length, by simp [justify], rfl⟩
  | right =>
    refine ⟨by simp [justify]; omega, w - c.length, 0, by simp [justify], rfl⟩
  | center =>
    refine ⟨by simp [justify]; omega, before c.length w, w - c.length - before c.length w, by simp [justify], ?_⟩
    dsimp only
    unfold before
    by_cases hp : (w - c.length) % 2 = 1 ∧ w % 2 = 1
    · rw [if_pos hp]; constructor <;> omega
    · rw [if_neg hp]; constructor <;> omega

theorem widen_get : ∀ (ws : List Nat) (row : List Txt) (j : Nat),
    (widen ws row)[j]? = ws[j]?.map (fun w => max w ((row[j]?.map List.length).getD 0)) := by
  intro ws
  induction ws with
  | nil => intro row j; simp [widen]
  | cons w ws ih =>
    intro row j
    cases row with
    | nil =>
      show (w :: ws)[j]? = _
      cases h : (w :: ws)[j]? <;> simp
    | cons v vs =>
      show ((if v.length > w then v.length else w) :: widen ws vs)[j]? = _
      cases j with
      | zero =>
        simp only [List.getElem?_cons_zero, Option.map_some, Option.getD_some]
        congr 1
        split <;> omega
      | succ j =>
        simp only [List.getElem?_cons_succ]
        exact ih vs j

theorem length_widen : ∀ (ws : List Nat) (row : List Txt), (widen ws row).length = ws.length := by
  intro ws
  induction ws with
  | nil => intro row; rfl
  | cons w ws ih =>
    intro row
    cases row with
    | nil => rfl
    | cons v vs => simp [widen, ih]

theorem widths_widen {ws : List Nat} {rows : List (List Txt)} (h : Widths ws rows) (row : List Txt) :
    Widths (widen ws row) (row :: rows) := by
  intro j w hw
  rw [widen_get] at hw
  obtain ⟨v, hv, rfl⟩ := Option.map_eq_some_iff.1 hw
  obtain ⟨h1, h2, h3⟩ := h j v hv
  refine ⟨by omega, ?_, ?_⟩
  · intro r hr c hc
    rcases List.mem_cons.1 hr with rfl | hr
    · rw [hc]; simp only [Option.map_some, Option.getD_some]; exact Nat.le_max_right _ _
    · have := h2 r hr c hc; omega
  · cases hc : row[j]? with
    | none =>
      simp only [Option.map_none, Option.getD_none, Nat.max_zero]
      rcases h3 with h3 | ⟨r, hr, c, hc', hl⟩
      · exact Or.inl h3
      · exact Or.inr ⟨r, by simp [hr], c, hc', hl⟩
    | some c =>
      simp only [Option.map_some, Option.getD_some]
      by_cases hle : c.length ≤ v
      · rw [Nat.max_eq_left hle]
        rcases h3 with h3 | ⟨r, hr, c', hc', hl⟩
        · exact Or.inl h3
        · exact Or.inr ⟨r, by simp [hr], c', hc', hl⟩
      · rw [Nat.max_eq_right (by omega)]
        exact Or.inr ⟨row, by simp, c, hc, rfl⟩

theorem Widths.of_mem {ws : List Nat} {rows rows' : List (List Txt)} (h : Widths ws rows)
    (he : ∀ r, r ∈ rows ↔ r ∈ rows') : Widths ws rows' := by
  intro j w hw
  obtain ⟨h1, h2, h3⟩ := h j w hw
  refine ⟨h1, fun r hr => h2 r ((he r).2 hr), ?_⟩
  rcases h3 with h3 | ⟨r, hr, h⟩
  · exact Or.inl h3
  · exact Or.inr ⟨r, (he r).1 hr, h⟩

theorem widths_foldl : ∀ (t : List (List Txt)) (ws : List Nat) (rows : List (List Txt)), Widths ws rows →
    Widths (t.foldl widen ws) (t ++ rows) ∧ (t.foldl widen ws).length = ws.length := by
  intro t
  induction t with
  | nil => intro ws rows h; exact ⟨h, rfl⟩
  | cons r t ih =>
    intro ws rows h
    obtain ⟨h1, h2⟩ := ih _ _ (widths_widen h r)
    refine ⟨h1.of_mem (fun x => ?_), by rw [List.foldl_cons, h2, length_widen]⟩
    simp only [List.mem_append, List.mem_cons]; tauto

theorem numCols_eq {t : List (List Txt)} {n : Nat} (ht : t ≠ []) (h : ∀ r ∈ t, r.length = n) :
    numCols t = n := by
  have gen : ∀ (t : List (List Txt)) (c : Nat), (∀ r ∈ t, r.length = n) → c ≤ n →
      t.foldl (fun c row => if row.length > c then row.length else c) c = if t = [] then c else n := by
    intro t
    induction t with
    | nil => intro c _ _; rfl
    | cons r t ih =>
      intro c hr hc
      have h1 := hr r (by simp)
      rw [List.foldl_cons, ih _ (fun x hx => hr x (by simp [hx])) (by split <;> omega)]
      split
      · split <;> simp <;> omega
      · simp
  unfold numCols
  rw [gen t 0 h (by omega), if_neg ht]

theorem widths_spec {t : List (List Txt)} {n : Nat} (ht : t ≠ []) (h : ∀ r ∈ t, r.length = n) :
    Widths (widths t) t ∧ (widths t).length = n := by
  have h0 : Widths (List.replicate (numCols t) 1) [] := by
    intro j w hw
    have := List.mem_of_getElem? hw
    have := List.eq_of_mem_replicate this
    subst this
    exact ⟨by omega, by simp, Or.inl rfl⟩
  obtain ⟨h1, h2⟩ := widths_foldl t _ _ h0
  rw [List.append_nil] at h1
  exact ⟨h1, by unfold widths; rw [h2, List.length_replicate, numCols_eq ht h]⟩

theorem headerWidths_spec {t : List (List Txt)} {n : Nat} (ht : t ≠ []) (h : ∀ r ∈ t, r.length = n)
    {headers : Option (List Txt)} (hh : ∀ r ∈ headers, r.length = n) :
    ∃ ws, headerWidths (widths t) headers = .ok ws ∧ Widths ws (allRows headers t) ∧ ws.length = n := by
  obtain ⟨h1, h2⟩ := widths_spec ht h
  cases headers with
  | none => exact ⟨_, rfl, h1, h2⟩
  | some r =>
    have hr := hh r rfl
    refine ⟨widen (widths t) r, ?_, ?_, by rw [length_widen, h2]⟩
    · unfold headerWidths; dsimp only; rw [if_pos (by omega)]
    · exact widths_widen h1 r

theorem flatten_addSep (sep : Txt) : ∀ (fs : List Txt), (addSep sep fs).flatten = List.intercalate sep fs := by
  intro fs
  induction fs with
  | nil => rfl
  | cons f fs ih =>
    cases fs with
    | nil => simp [addSep, List.intercalate]
    | cons g fs =>
      rw [addSep, List.flatten_cons, ih]
      simp [List.intercalate]

theorem length_padCells (o : Opts) (header : Bool) (i : Nat) : ∀ (ws : List Nat) (cells : List Txt) (j : Nat),
    cells.length = ws.length → (padCells o header i j ws cells).length = ws.length := by
  intro ws
  induction ws with
  | nil => intro cells j h; cases cells with
    | nil => rfl
    | cons => simp at h
  | cons w ws ih =>
    intro cells j h
    cases cells with
    | nil => simp at h
    | cons c cells => simp only [padCells, List.length_cons]; rw [ih _ _ (by simpa using h)]

theorem padCells_get (o : Opts) (header : Bool) (i : Nat) : ∀ (ws : List Nat) (cells : List Txt) (j k : Nat)
    (w : Nat) (c : Txt), ws[k]? = some w → cells[k]? = some c →
      (padCells o header i j ws cells)[k]? = some (justify (kind o header i (j + k)) c w) := by
  intro ws
  induction ws with
  | nil => intro cells j k w c h; simp at h
  | cons w' ws ih =>
    intro cells j k w c hw hc
    cases cells with
    | nil => simp at hc
    | cons c' cells =>
      cases k with
      | zero =>
        simp only [List.getElem?_cons_zero, Option.some.injEq] at hw hc
        subst hw; subst hc; rfl
      | succ k =>
        simp only [List.getElem?_cons_succ] at hw hc
        simp only [padCells, List.getElem?_cons_succ]
        rw [ih cells (j + 1) k w c hw hc]
        congr 3; omega

theorem kind_eq (o : Opts) (header : Bool) (i j : Nat) : kind o header i j = Side o header i j := by
  unfold kind Side
  cases header <;> cases i <;> cases j <;> simp

theorem line_padRow (o : Opts) (header : Bool) {ws : List Nat} {rows : List (List Txt)} (hws : Widths ws rows)
    (i : Nat) {row : List Txt} (hr : row ∈ rows) (hlen : row.length = ws.length) :
    Line (Side o header i) ws o.sep row (padRow o header ws i row).flatten := by
  refine ⟨padCells o header i 0 ws row, length_padCells o header i ws row 0 hlen, flatten_addSep _ _, ?_⟩
  intro j w c f hw hc hf
  rw [padCells_get o header i ws row 0 j w c hw hc, Option.some.injEq] at hf
  subst hf
  rw [Nat.zero_add, kind_eq]
  exact field_justify _ ((hws j w hw).2.1 row hr c hc)

theorem padRows_get (o : Opts) (header : Bool) (ws : List Nat) : ∀ (rows : List (List Txt)) (i k : Nat),
    (padRows o header ws i rows)[k]? = rows[k]?.map (padRow o header ws (i + k)) := by
  intro rows
  induction rows with
  | nil => intro i k; rfl
  | cons r rows ih =>
    intro i k
    cases k with
    | zero => rfl
    | succ k =>
      simp only [padRows, List.getElem?_cons_succ]
      rw [ih]
      congr 2; omega

theorem length_padRows (o : Opts) (header : Bool) (ws : List Nat) : ∀ (rows : List (List Txt)) (i : Nat),
    (padRows o header ws i rows).length = rows.length := by
  intro rows
  induction rows with
  | nil => intro i; rfl
  | cons r rows ih => intro i; simp [padRows, ih]

theorem render_eq (o : Opts) (rows : List (List Txt)) (h : rows ≠ []) :
    render o rows = List.intercalate ['\n'] (rows.map List.flatten) ++
      (if o.trailing then ['\n'] else []) := by
  have gen : ∀ rows : List (List Txt), rows ≠ [] →
      rows.dropLast.flatMap (fun r => r.flatten ++ ['\n']) ++ (rows.getLastD []).flatten =
        List.intercalate ['\n'] (rows.map List.flatten) := by
    intro rows
    induction rows with
    | nil => intro h; exact absurd rfl h
    | cons r rows ih =>
      intro _
      cases rows with
      | nil => simp [List.intercalate]
      | cons r' rows =>
        have := ih (by simp)
        rw [List.dropLast_cons_of_ne_nil (by simp), List.flatMap_cons, List.append_assoc, List.append_assoc]
        have e : (r :: r' :: rows).getLastD [] = (r' :: rows).getLastD [] := by
          simp [List.getLastD]
        rw [e, this]
        simp [List.intercalate]
  unfold render
  rw [gen rows h]

/-! ## Theorems -/

/-- C110: the text of a table, all of whose rows have `n` cells, has one line for the headers, if there
are any, and one for each row, in their order; in each line each cell, uncut, is in a field as wide as its
column, on the side asked for, and the columns are no wider than needed. -/
theorem C110_table (t : List (List Txt)) (n : Nat) (ht : t ≠ []) (hr : ∀ r ∈ t, r.length = n)
    (headers : Option (List Txt)) (hh : ∀ r ∈ headers, r.length = n) (o : Opts)
    (hm : ∀ m ∈ o.maxRows, (allRows headers t).length ≤ m) (hs : o.snip = none) :
    ∃ ws lines after, tableString t headers o =
        .ok (List.intercalate ['\n'] lines ++ (if o.trailing then ['\n'] else []), after) ∧
      ws.length = n ∧ Widths ws (allRows headers t) ∧ lines.length = (allRows headers t).length ∧
      ∀ i row line, (allRows headers t)[i]? = some row → lines[i]? = some line →
        Line (Side o headers.isSome i) ws o.sep row line := by
  obtain ⟨ws, h1, h2, h3⟩ := headerWidths_spec ht hr hh
  have ew : withHeader headers t = allRows headers t := by cases headers <;> rfl
  have es : shorten o (withHeader headers t) = .ok (allRows headers t) := by
    unfold shorten
    rw [ew, hs]
    cases hmm : o.maxRows with
    | none => rfl
    | some m =>
      have := hm m hmm
      dsimp only
      rw [if_neg (by omega)]
  have hall : ∀ r ∈ allRows headers t, r.length = n := by
    intro r h
    rcases List.mem_append.1 h with h | h
    · exact hh r (by simpa using h)
    · exact hr r h
  have hne : allRows headers t ≠ [] := by
    unfold allRows; simp [ht]
  refine ⟨ws, (padRows o headers.isSome ws 0 (allRows headers t)).map List.flatten,
    headers.map (padRow o true ws 0), ?_, h3, h2, ?_, ?_⟩
  · unfold tableString
    rw [if_neg (by simpa using ht)]
    simp only [bind, Except.bind, pure, Except.pure, h1, es]
    rw [render_eq]
    intro h
    have := congrArg List.length h
    rw [length_padRows] at this
    exact hne (List.eq_nil_of_length_eq_zero this)
  · rw [List.length_map, length_padRows]
  · intro i row line hi hl
    rw [List.getElem?_map, padRows_get, hi] at hl
    simp only [Option.map_some, Option.some.injEq, Nat.zero_add] at hl
    subst hl
    have hmem := List.mem_of_getElem? hi
    exact line_padRow o headers.isSome h2 i hmem (by rw [hall row hmem, h3])

theorem intercalate_cons (sep f g : Txt) (fs : List Txt) :
    List.intercalate sep (f :: g :: fs) = f ++ sep ++ List.intercalate sep (g :: fs) := by
  simp [List.intercalate]

/-- C110: in every line the columns are at the same places: the field of column `j` starts behind the
fields and separators of the columns before. -/
theorem C110_aligned (k : Nat → Justify) (ws : List Nat) (sep : Txt) (cells : List Txt)
    (hlen : cells.length = ws.length) (line : Txt) (h : Line k ws sep cells line) (j w : Nat) (c : Txt)
    (hw : ws[j]? = some w) (hc : cells[j]? = some c) :
    Field (k j) w c ((line.drop ((ws.take j).sum + j * sep.length)).take w) ∧
      line.length = ws.sum + (ws.length - 1) * sep.length := by
  obtain ⟨fields, hf, rfl, hfield⟩ := h
  have lens : ∀ (j w : Nat) (f : Txt), ws[j]? = some w → fields[j]? = some f → f.length = w := by
    intro j w f hw hf'
    have hj : j < cells.length := by rw [hlen]; exact (List.getElem?_eq_some_iff.1 hw).1
    exact (hfield j w cells[j] f hw (List.getElem?_eq_getElem hj) hf').1
  have gen : ∀ (ws : List Nat) (fields : List Txt), fields.length = ws.length →
      (∀ (j w : Nat) (f : Txt), ws[j]? = some w → fields[j]? = some f → f.length = w) →
      (List.intercalate sep fields).length = ws.sum + (ws.length - 1) * sep.length ∧
      ∀ (j w : Nat) (f : Txt), ws[j]? = some w → fields[j]? = some f →
        ((List.intercalate sep fields).drop ((ws.take j).sum + j * sep.length)).take w = f := by
    intro ws
    induction ws with
    | nil =>
      intro fields hl _
      have : fields = [] := List.eq_nil_of_length_eq_zero hl
      subst this
      exact ⟨by simp [List.intercalate], by simp⟩
    | cons w ws ih =>
      intro fields hl hlens
      cases fields with
      | nil => simp at hl
      | cons f fields =>
        have hfw : f.length = w := hlens 0 w f rfl rfl
        obtain ⟨i1, i2⟩ := ih fields (by simpa using hl)
          (fun j w f h1 h2 => hlens (j + 1) w f (by simpa using h1) (by simpa using h2))
        cases fields with
        | nil =>
          have hws : ws = [] := List.eq_nil_of_length_eq_zero (by simpa using hl.symm)
          subst hws
          refine ⟨by simp [List.intercalate, hfw], ?_⟩
          intro j w' f' h1 h2
          cases j with
          | zero =>
            simp only [List.getElem?_cons_zero, Option.some.injEq] at h1 h2
            subst h1; subst h2
            simp [List.intercalate, ← hfw]
          | succ j => simp at h1
        | cons g fs =>
          rw [intercalate_cons]
          constructor
          · simp only [List.length_append, i1, hfw, List.sum_cons, List.length_cons]
            have hws : ws.length = fs.length + 1 := by simpa using hl.symm
            rw [hws]
            simp only [Nat.add_sub_cancel, Nat.succ_mul]
            omega
          · intro j w' f' h1 h2
            cases j with
            | zero =>
              simp only [List.getElem?_cons_zero, Option.some.injEq] at h1 h2
              subst h1; subst h2
              simp [← hfw, List.append_assoc]
            | succ j =>
              simp only [List.getElem?_cons_succ] at h1 h2
              rw [← i2 j w' f' h1 (by simpa using h2)]
              congr 1
              rw [List.take_succ_cons, List.sum_cons]
              have e : w + (ws.take j).sum + (j + 1) * sep.length =
                  (f ++ sep).length + ((ws.take j).sum + j * sep.length) := by
                rw [List.length_append, hfw, Nat.succ_mul]; omega
              rw [e, List.drop_append]
              simp
  obtain ⟨g1, g2⟩ := gen ws fields hf lens
  refine ⟨?_, g1⟩
  have hj : j < fields.length := by rw [hf]; exact (List.getElem?_eq_some_iff.1 hw).1
  have hfj := List.getElem?_eq_getElem hj
  rw [g2 j w _ hw hfj]
  exact hfield j w c _ hw hc hfj

/-- C110: a table without rows is no text, and headers for more columns than there are is an `IndexError`. -/
theorem C110_refused (headers : Option (List Txt)) (o : Opts) :
    tableString [] headers o = .ok ([], headers) ∧
      ∀ (t : List (List Txt)) (n : Nat) (h : List Txt), t ≠ [] → (∀ r ∈ t, r.length = n) → n < h.length →
        tableString t (some h) o = .error .IndexError := by
  refine ⟨rfl, ?_⟩
  intro t n h ht hr hn
  obtain ⟨-, h2⟩ := widths_spec ht hr
  unfold tableString
  rw [if_neg (by simpa using ht)]
  have : headerWidths (widths t) (some h) = .error .IndexError := by
    unfold headerWidths; dsimp only; rw [if_neg (by omega)]
  simp only [bind, Except.bind, this]

/-- C110: with a limit for the rows, a table with more rows is never shown in part: the call fails
with an `IndexError`. -/
theorem C110_limit_violated (t : List (List Txt)) (n : Nat) (ht : t ≠ []) (hr : ∀ r ∈ t, r.length = n)
    (headers : Option (List Txt)) (hh : ∀ r ∈ headers, r.length = n) (o : Opts) (m : Nat)
    (hm : o.maxRows = some m) (hl : m < (allRows headers t).length) :
    tableString t headers o = .error .IndexError := by
  obtain ⟨ws, h1, -, -⟩ := headerWidths_spec ht hr hh
  have ew : withHeader headers t = allRows headers t := by cases headers <;> rfl
  have es : shorten o (withHeader headers t) = .error .IndexError := by
    unfold shorten
    rw [ew, hm]
    dsimp only
    rw [if_pos (by omega)]
    unfold cut
    dsimp only
    rw [List.getElem?_eq_none (by rw [List.length_take]; omega)]
  unfold tableString
  rw [if_neg (by simpa using ht)]
  simp only [bind, Except.bind, h1, es]

/-- C110: the caller's list of headers is changed by the call: with two columns or more, and a separator,
its first header is afterwards a longer text. -/
theorem C110_headers_violated (t : List (List Txt)) (n : Nat) (ht : t ≠ []) (hr : ∀ r ∈ t, r.length = n)
    (h : List Txt) (hh : h.length = n) (hn : 2 ≤ n) (o : Opts) (hsep : o.sep ≠ [])
    (hm : o.maxRows = none) (hs : o.snip = none) :
    ∃ text h', tableString t (some h) o = .ok (text, some h') ∧ h' ≠ h := by
  obtain ⟨ws, h1, h2, h3⟩ := headerWidths_spec ht hr (headers := some h) (by rintro r ⟨⟩; exact hh)
  have es : shorten o (withHeader (some h) t) = .ok (h :: t) := by
    unfold shorten; rw [hm, hs]; rfl
  refine ⟨render o (padRows o true ws 0 (h :: t)), padRow o true ws 0 h, ?_, ?_⟩
  · unfold tableString
    rw [if_neg (by simpa using ht)]
    simp only [bind, Except.bind, pure, Except.pure, h1, es]
    rfl
  · intro he
    match h, ws, hh, h3 with
    | a :: b :: h, w :: v :: ws, _, _ =>
      have hhead := congrArg (fun l => (l.headD []).length) he
      have hw := (h2 0 w rfl).2.1 (a :: b :: h) (by simp [allRows]) a rfl
      have hf := (field_justify (kind o true 0 0) hw).1
      simp only [padRow, padCells, addSep, List.headD_cons, List.length_append, hf] at hhead
      have : 0 < o.sep.length := List.length_pos_iff.2 hsep
      omega
    | [], _, hh, _ => simp at hh; omega
    | [_], _, hh, _ => simp at hh; omega
    | _ :: _ :: _, [], hh, h3 => simp at h3; omega
    | _ :: _ :: _, [_], hh, h3 => simp at h3; omega

/-- C110: with `snipIndex` at `s`, not above the number of lines, the lines before it are shown, then one with
dots, and no others. -/
theorem C110_snip (t : List (List Txt)) (n : Nat) (ht : t ≠ []) (hr : ∀ r ∈ t, r.length = n)
    (headers : Option (List Txt)) (hh : ∀ r ∈ headers, r.length = n) (o : Opts)
    (hm : o.maxRows = none) (s : Nat) (hs : o.snip = some s) (h0 : 0 < s)
    (hle : s ≤ (allRows headers t).length) :
    ∃ ws lines last after, tableString t headers o =
        .ok (List.intercalate ['\n'] (lines ++ [last]) ++ (if o.trailing then ['\n'] else []), after) ∧
      ws.length = n ∧ Widths ws (allRows headers t) ∧ lines.length = s ∧
      (∀ i row line, (allRows headers t)[i]? = some row → lines[i]? = some line →
        Line (Side o headers.isSome i) ws o.sep row line) ∧
      (1 ≤ n → ['.', '.', '.'] <:+: last) := by
  obtain ⟨ws, h1, h2, h3⟩ := headerWidths_spec ht hr hh
  have ew : withHeader headers t = allRows headers t := by cases headers <;> rfl
  have hall : ∀ r ∈ allRows headers t, r.length = n := by
    intro r h
    rcases List.mem_append.1 h with h | h
    · exact hh r (by simpa using h)
    · exact hr r h
  have hlen : (((allRows headers t).take s).headD []).length = n := by
    cases hc : allRows headers t with
    | nil => rw [hc] at hle; simp at hle; omega
    | cons a l =>
      cases s with
      | zero => omega
      | succ s => simpa using hall a (by rw [hc]; simp)
  have es : shorten o (withHeader headers t) = .ok ((allRows headers t).take s ++ [dots n]) := by
    unfold shorten
    rw [ew, hm, hs]
    dsimp only
    rw [if_pos h0]
    unfold snipped
    dsimp only
    rw [hlen, List.drop_of_length_le (by simp; omega), List.append_nil]
  refine ⟨ws, (padRows o headers.isSome ws 0 ((allRows headers t).take s)).map List.flatten,
    (padRow o headers.isSome ws s (dots n)).flatten, headers.map (padRow o true ws 0), ?_, h3, h2, ?_, ?_, ?_⟩
  · unfold tableString
    rw [if_neg (by simpa using ht)]
    simp only [bind, Except.bind, pure, Except.pure, h1, es]
    have split : ∀ (a : List (List Txt)) (b : List Txt) (i : Nat), padRows o headers.isSome ws i (a ++ [b]) =
        padRows o headers.isSome ws i a ++ [padRow o headers.isSome ws (i + a.length) b] := by
      intro a
      induction a with
      | nil => intro b i; simp [padRows]
      | cons x a ih =>
        intro b i
        have e : i + 1 + a.length = i + (a.length + 1) := by omega
        simp only [List.cons_append, padRows, ih, List.length_cons, e]
    rw [render_eq _ _ (by rw [split]; simp), split]
    have el : 0 + ((allRows headers t).take s).length = s := by
      rw [List.length_take]; omega
    rw [el, List.map_append]
    rfl
  · rw [List.length_map, length_padRows, List.length_take]; omega
  · intro i row line hi hl
    rw [List.getElem?_map, padRows_get] at hl
    have hi' : ((allRows headers t).take s)[i]? = some row ∨ ((allRows headers t).take s)[i]? = none := by
      rw [List.getElem?_take]
      split
      · exact Or.inl hi
      · exact Or.inr rfl
    rcases hi' with hi' | hi'
    · rw [hi'] at hl
      simp only [Option.map_some, Option.some.injEq, Nat.zero_add] at hl
      subst hl
      have hmem := List.mem_of_getElem? hi
      exact line_padRow o headers.isSome h2 i hmem (by rw [hall row hmem, h3])
    · rw [hi'] at hl; simp at hl
  · intro hn
    match n, ws, hn, h3 with
    | n + 1, w :: ws, _, _ =>
      have hsub : ∀ k w, (['.', '.', '.'] : Txt) <:+: justify k ['.', '.', '.'] w := by
        intro k w
        cases k with
        | left => exact ⟨[], _, rfl⟩
        | right => exact ⟨_, [], List.append_nil _⟩
        | center => exact ⟨_, _, rfl⟩
      have ed : dots (n + 1) = ['.', '.', '.'] :: dots n := rfl
      rw [padRow, flatten_addSep, ed, padCells]
      generalize padCells o headers.isSome s (0 + 1) ws (dots n) = fs
      refine List.IsInfix.trans (hsub (kind o headers.isSome s 0) w) ?_
      cases fs with
      | nil => simp [List.intercalate]
      | cons g fs =>
        rw [intercalate_cons]
        exact ⟨[], o.sep ++ List.intercalate o.sep (g :: fs), by simp⟩

/-! ## Examples -/

/-- A table with headers, as text. -/
example : tableString [["a".toList, "12".toList], ["bcd".toList, "3".toList]] (some ["id".toList, "n".toList]) {} =
    .ok (" id  n \n  a  12\nbcd  3 \n".toList, some [" id  ".toList, "n ".toList]) := by decide +kernel

/-- It meets the conditions of `C110_table`. -/
example : ∃ ws lines after, tableString [["a".toList, "12".toList], ["bcd".toList, "3".toList]] none {} =
      .ok (List.intercalate ['\n'] lines ++ ['\n'], after) ∧ ws.length = 2 ∧
        Widths ws [["a".toList, "12".toList], ["bcd".toList, "3".toList]] := by
  obtain ⟨ws, lines, after, h1, h2, h3, -⟩ := C110_table [["a".toList, "12".toList], ["bcd".toList, "3".toList]] 2
    (by simp) (by simp) none (by simp) {} (by simp) rfl
  exact ⟨ws, lines, after, h1, h2, h3⟩

/-- Two rows, with a limit of one. -/
example : tableString [["a".toList], ["b".toList]] none { maxRows := some 1 } = .error .IndexError :=
  C110_limit_violated _ 1 (by simp) (by simp) none (by simp) _ 1 rfl (by decide)

/-- Three rows, of which the first and dots are shown. -/
example : tableString [["ab".toList, "12".toList], ["c".toList, "3".toList], ["d".toList, "4".toList]] none
    { snip := some 1 } = .ok ("ab  12\n...  ...\n".toList, none) := by decide +kernel

end TableText
end Nimble
