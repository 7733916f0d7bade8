import Verif.Props.LogSessions

/-!
# C69: what `showLog` shows
-/

namespace Nimble.Log

/-! ### Specification -/

/-- Chronological order. -/
def NotAfter (a b : DateTime) : Prop :=
  a.year < b.year ∨ (a.year = b.year ∧ (a.month < b.month ∨ (a.month = b.month ∧
  (a.day < b.day ∨ (a.day = b.day ∧ (a.hour < b.hour ∨ (a.hour = b.hour ∧
  (a.minute < b.minute ∨ (a.minute = b.minute ∧ a.second ≤ b.second)))))))))

/-- The entry satisfies the filters of a query.  `newest` is the latest session number; the entry was
recorded at time `t`. -/
structure Wanted (q : Query) (start stop : Option DateTime) (newest : Int) (t : DateTime) (e : Entry) :
    Prop where
  least : ∀ l, q.least = some l → l ≤ newest - e.session
  most : ∀ k, q.most = some k → newest - e.session < k
  start : ∀ d, start = some d → NotAfter d t
  stop : ∀ d, stop = some d → NotAfter t d
  search : ∀ s, q.search = some s → s.hits e = true

/-- `x` occurs in `t`, ignoring the case of ASCII letters. -/
def Occurs (x t : List Char) : Prop :=
  ∃ a y b, t = a ++ y ++ b ∧ y.map Char.toLower = x.map Char.toLower

def Item.entry? : Item → Option Entry
  | .entry e => some e
  | .header _ => none

def Item.header? : Item → Option Nat
  | .header n => some n
  | .entry _ => none

/-! ### Dates -/

theorem digit_toNat (n : Nat) : (digit n).toNat = 48 + n % 10 := by
  have h : ∀ k, k < 10 → (Char.ofNat (48 + k)).toNat = 48 + k := by decide
  exact h _ (Nat.mod_lt _ (by omega))

theorem digit_inj {a b : Nat} (h : digit a = digit b) : a % 10 = b % 10 := by
  have := congrArg Char.toNat h
  rw [digit_toNat, digit_toNat] at this
  omega

theorem length_digs (w n : Nat) : (digs w n).length = w := by
  induction w generalizing n with
  | zero => rfl
  | succ w ih => rw [digs, List.length_append, ih]; rfl

theorem digs_inj {w n m : Nat} (hn : n < 10 ^ w) (hm : m < 10 ^ w) (h : digs w n = digs w m) : n = m := by
  induction w generalizing n m with
  | zero => simp at hn hm; omega
  | succ w ih =>
    rw [digs, digs] at h
    obtain ⟨h1, h2⟩ := List.append_inj h (by rw [length_digs, length_digs])
    have h3 := ih (by rw [Nat.pow_succ] at hn; omega) (by rw [Nat.pow_succ] at hm; omega) h1
    have h4 := digit_inj (List.cons.inj h2).1
    omega

theorem lexLe_refl (a : List Char) : lexLe a a = true := by
  induction a with
  | nil => rfl
  | cons c a ih => simp [lexLe, ih]

theorem lexLe_append {a b c d : List Char} (h : a.length = b.length) :
    lexLe (a ++ c) (b ++ d) = true ↔ (a ≠ b ∧ lexLe a b = true) ∨ (a = b ∧ lexLe c d = true) := by
  induction a generalizing b with
  | nil =>
    cases b with
    | nil => simp
    | cons y b => simp at h
  | cons x a ih =>
    cases b with
    | nil => simp at h
    | cons y b =>
      simp only [List.length_cons, Nat.add_right_cancel_iff] at h
      simp only [List.cons_append, lexLe, Bool.or_eq_true, Bool.and_eq_true, decide_eq_true_eq, ih h,
        List.cons.injEq, ne_eq, not_and]
      by_cases hxy : x = y
      · subst hxy; simp
      · simp [hxy]

theorem lexLe_digs {w n m : Nat} (hn : n < 10 ^ w) (hm : m < 10 ^ w) :
    lexLe (digs w n) (digs w m) = true ↔ n ≤ m := by
  induction w generalizing n m with
  | zero => simp at hn hm; subst hn hm; simp [digs, lexLe]
  | succ w ih =>
    have hn' : n / 10 < 10 ^ w := by rw [Nat.pow_succ] at hn; omega
    have hm' : m / 10 < 10 ^ w := by rw [Nat.pow_succ] at hm; omega
    rw [digs, digs, lexLe_append (by rw [length_digs, length_digs]), ih hn' hm']
    have h1 : lexLe [digit n] [digit m] = true ↔ n % 10 ≤ m % 10 := by
      simp only [lexLe, Bool.or_eq_true, Bool.and_eq_true, decide_eq_true_eq, and_true, digit_toNat]
      constructor
      · rintro (h | h)
        · omega
        · exact Nat.le_of_eq (digit_inj h)
      · intro h
        by_cases h2 : n % 10 = m % 10
        · right; unfold digit; rw [h2]
        · left; omega
    rw [h1]
    by_cases he : n / 10 = m / 10
    · rw [he]; simp; omega
    · have : digs w (n / 10) ≠ digs w (m / 10) := fun h => he (digs_inj hn' hm' h)
      simp [this]; omega

/-- Comparing a fixed-width number followed by a separator. -/
theorem lexLe_field {w n m : Nat} {s : Char} {c d : List Char} (hn : n < 10 ^ w) (hm : m < 10 ^ w) :
    lexLe (digs w n ++ s :: c) (digs w m ++ s :: d) = true ↔ n < m ∨ (n = m ∧ lexLe c d = true) := by
  rw [lexLe_append (by rw [length_digs, length_digs]), lexLe_digs hn hm]
  have hs : lexLe (s :: c) (s :: d) = lexLe c d := by simp [lexLe]
  rw [hs]
  by_cases h : n = m
  · subst h; simp
  · have : digs w n ≠ digs w m := fun e => h (digs_inj hn hm e)
    simp [this, h]; omega

theorem valid_bounds {d : DateTime} (h : d.valid = true) : d.year < 10 ^ 4 ∧ d.month < 10 ^ 2 ∧
    d.day < 10 ^ 2 ∧ d.hour < 10 ^ 2 ∧ d.minute < 10 ^ 2 ∧ d.second < 10 ^ 2 := by
  unfold DateTime.valid at h
  simp only [Bool.and_eq_true, decide_eq_true_eq] at h
  have hd : daysIn d.year d.month ≤ 31 := by
    unfold daysIn; split
    · split <;> omega
    · split <;> omega
  omega

/-- The recorded texts are ordered like the times. -/
theorem lexLe_fmt {a b : DateTime} (ha : a.valid = true) (hb : b.valid = true) :
    lexLe a.fmt b.fmt = true ↔ NotAfter a b := by
  obtain ⟨a1, a2, a3, a4, a5, a6⟩ := valid_bounds ha
  obtain ⟨b1, b2, b3, b4, b5, b6⟩ := valid_bounds hb
  unfold DateTime.fmt DateTime.date NotAfter
  simp only [List.append_assoc, List.cons_append]
  rw [lexLe_field a1 b1, lexLe_field a2 b2, lexLe_field a3 b3, lexLe_field a4 b4, lexLe_field a5 b5,
    lexLe_digs a6 b6]

/-! ### Date strings -/

private theorem digit_props (n : Nat) : (digit n).isWhitespace = false ∧ digit n ≠ '-' ∧ digit n ≠ '+' ∧
    digit n ≠ '_' ∧ digitVal (digit n) = some (n % 10) := by
  have h : ∀ k, k < 10 → (Char.ofNat (48 + k)).isWhitespace = false ∧ Char.ofNat (48 + k) ≠ '-' ∧
      Char.ofNat (48 + k) ≠ '+' ∧ Char.ofNat (48 + k) ≠ '_' ∧ digitVal (Char.ofNat (48 + k)) = some k := by
    decide
  exact h _ (Nat.mod_lt _ (by omega))

theorem strip_id {s : List Char} {a b : Char} {m : List Char} (h : s = a :: m ++ [b])
    (ha : a.isWhitespace = false) (hb : b.isWhitespace = false) : strip s = s := by
  subst h
  unfold strip
  rw [List.cons_append, List.dropWhile_cons_of_neg (by simp [ha])]
  rw [show (a :: (m ++ [b])).reverse = b :: (m.reverse ++ [a]) by simp,
    List.dropWhile_cons_of_neg (by simp [hb])]
  simp

theorem pyInt_two (n : Nat) (hn : n < 10 ^ 2) : pyInt (digs 2 n) = some (n : Int) := by
  have h1 := digit_props (n / 10)
  have h2 := digit_props n
  have hd : digs 2 n = [digit (n / 10), digit n] := rfl
  unfold pyInt
  rw [strip_id (m := []) hd h1.1 h2.1, hd]
  split
  · rename_i h; exact absurd (List.cons.inj h).1 h1.2.1
  · rename_i h; exact absurd (List.cons.inj h).1 h1.2.2.1
  · simp only [intDigits, if_neg h1.2.2.2.1, if_neg h2.2.2.2.1, h1.2.2.2.2, h2.2.2.2.2,
      Option.getD_none, Option.getD_some, Option.map_some,
      Int.ofNat_eq_natCast]
    congr 1
    omega

theorem pyInt_four (n : Nat) (hn : n < 10 ^ 4) : pyInt (digs 4 n) = some (n : Int) := by
  have h1 := digit_props (n / 10 / 10 / 10)
  have h2 := digit_props (n / 10 / 10)
  have h3 := digit_props (n / 10)
  have h4 := digit_props n
  have hd : digs 4 n = [digit (n / 10 / 10 / 10), digit (n / 10 / 10), digit (n / 10), digit n] := rfl
  unfold pyInt
  rw [strip_id (m := [digit (n / 10 / 10), digit (n / 10)]) hd h1.1 h4.1, hd]
  split
  · rename_i h; exact absurd (List.cons.inj h).1 h1.2.1
  · rename_i h; exact absurd (List.cons.inj h).1 h1.2.2.1
  · simp only [intDigits, if_neg h1.2.2.2.1, if_neg h2.2.2.2.1, if_neg h3.2.2.2.1, if_neg h4.2.2.2.1,
      h1.2.2.2.2, h2.2.2.2.2, h3.2.2.2.2, h4.2.2.2.2, Option.getD_none, Option.getD_some, Option.map_some,
      Int.ofNat_eq_natCast]
    congr 1
    omega

private theorem makeDate_ok {d : DateTime} (h : d.valid = true) :
    makeDate [(d.year : Int), d.month, d.day, d.hour, d.minute, d.second] = some d := by
  unfold makeDate
  have hn : ¬ ((d.year : Int) < 0 ∨ (d.month : Int) < 0 ∨ (d.day : Int) < 0 ∨ (d.hour : Int) < 0 ∨
    (d.minute : Int) < 0 ∨ (d.second : Int) < 0) := by omega
  simp only [List.getElem?_cons_zero, List.getElem?_cons_succ, Option.getD_some, if_neg hn, Int.toNat_natCast]
  rw [if_pos h]

private theorem valid_mid {d : DateTime} (h : d.valid = true) :
    (⟨d.year, d.month, d.day, 0, 0, 0⟩ : DateTime).valid = true ∧
    (⟨d.year, d.month, d.day, d.hour, d.minute, 0⟩ : DateTime).valid = true := by
  unfold DateTime.valid at h ⊢
  simp only [Bool.and_eq_true, decide_eq_true_eq] at h ⊢
  omega

/-- The three documented formats of a valid date are understood as that date. -/
theorem C69_date_strings {d : DateTime} (h : d.valid = true) :
    stringToDatetime d.fmt = .ok d ∧
    stringToDatetime d.date = .ok ⟨d.year, d.month, d.day, 0, 0, 0⟩ ∧
    stringToDatetime (d.date ++ ' ' :: digs 2 d.hour ++ ':' :: digs 2 d.minute) =
      .ok ⟨d.year, d.month, d.day, d.hour, d.minute, 0⟩ := by
  obtain ⟨a1, a2, a3, a4, a5, a6⟩ := valid_bounds h
  have hy : digs 4 d.year = [digit (d.year / 10 / 10 / 10), digit (d.year / 10 / 10), digit (d.year / 10),
    digit d.year] := rfl
  have h2 : ∀ n, digs 2 n = [digit (n / 10), digit n] := fun _ => rfl
  have w := fun n => (digit_props n).1
  refine ⟨?_, ?_, ?_⟩
  · have hs : strip d.fmt = d.fmt := by
      refine strip_id (a := digit (d.year / 10 / 10 / 10)) (b := digit d.second)
        (m := (d.fmt.drop 1).dropLast) ?_ (w _) (w _)
      simp [DateTime.fmt, DateTime.date, hy, h2]
    unfold stringToDatetime
    dsimp only
    rw [hs]
    have hl : d.fmt.length = 19 := by simp [DateTime.fmt, DateTime.date, length_digs]
    rw [if_pos (by omega)]
    have hdiv : (dateDividers d.fmt).all (fun p => decide (p.1 = some p.2)) = true := by
      simp [dateDividers, DateTime.fmt, DateTime.date, hy, h2]
    have hargs : dateArgs d.fmt = [digs 4 d.year, digs 2 d.month, digs 2 d.day, digs 2 d.hour,
        digs 2 d.minute, digs 2 d.second] := by
      simp [dateArgs, DateTime.fmt, DateTime.date, hy, h2]
    rw [if_pos hdiv, hargs]
    simp only [List.mapM_cons, List.mapM_nil, pyInt_four _ a1, pyInt_two _ a2, pyInt_two _ a3,
      pyInt_two _ a4, pyInt_two _ a5, pyInt_two _ a6, bind, Option.bind, pure]
    rw [makeDate_ok h]
  · have hs : strip d.date = d.date := by
      refine strip_id (a := digit (d.year / 10 / 10 / 10)) (b := digit d.day)
        (m := (d.date.drop 1).dropLast) ?_ (w _) (w _)
      simp [DateTime.date, hy, h2]
    unfold stringToDatetime
    dsimp only
    rw [hs]
    have hl : d.date.length = 10 := by simp [DateTime.date, length_digs]
    rw [if_pos (by omega)]
    have hdiv : (dateDividers d.date).all (fun p => decide (p.1 = some p.2)) = true := by
      simp [dateDividers, DateTime.date, hy, h2]
    have hargs : dateArgs d.date = [digs 4 d.year, digs 2 d.month, digs 2 d.day] := by
      simp [dateArgs, DateTime.date, hy, h2]
    rw [if_pos hdiv, hargs]
    simp only [List.mapM_cons, List.mapM_nil, pyInt_four _ a1, pyInt_two _ a2, pyInt_two _ a3,
      bind, Option.bind, pure]
    have := makeDate_ok (valid_mid h).1
    rw [show makeDate [(d.year : Int), d.month, d.day] =
      some ⟨d.year, d.month, d.day, 0, 0, 0⟩ from this]
  · generalize hf : d.date ++ ' ' :: digs 2 d.hour ++ ':' :: digs 2 d.minute = f
    have hs : strip f = f := by
      refine strip_id (a := digit (d.year / 10 / 10 / 10)) (b := digit d.minute)
        (m := (f.drop 1).dropLast) ?_ (w _) (w _)
      simp [← hf, DateTime.date, hy, h2]
    unfold stringToDatetime
    dsimp only
    rw [hs]
    have hl : f.length = 16 := by simp [← hf, DateTime.date, length_digs]
    rw [if_pos (by omega)]
    have hdiv : (dateDividers f).all (fun p => decide (p.1 = some p.2)) = true := by
      simp [← hf, dateDividers, DateTime.date, hy, h2]
    have hargs : dateArgs f = [digs 4 d.year, digs 2 d.month, digs 2 d.day, digs 2 d.hour,
        digs 2 d.minute] := by
      simp [← hf, dateArgs, DateTime.date, hy, h2]
    rw [if_pos hdiv, hargs]
    simp only [List.mapM_cons, List.mapM_nil, pyInt_four _ a1, pyInt_two _ a2, pyInt_two _ a3,
      pyInt_two _ a4, pyInt_two _ a5, bind, Option.bind, pure]
    have := makeDate_ok (valid_mid h).2
    rw [show makeDate [(d.year : Int), d.month, d.day, d.hour, d.minute] =
      some ⟨d.year, d.month, d.day, d.hour, d.minute, 0⟩ from this]

theorem makeDate_valid {l : List Int} {d : DateTime} (h : makeDate l = some d) : d.valid = true := by
  unfold makeDate at h
  split at h
  · dsimp only at h
    split at h
    · simp at h
    · split at h
      · rename_i hv
        simp only [Option.some.injEq] at h
        rw [← h]; exact hv
      · simp at h
  · simp at h

theorem stringToDatetime_valid {s : List Char} {d : DateTime} (h : stringToDatetime s = .ok d) :
    d.valid = true := by
  unfold stringToDatetime at h
  dsimp only at h
  split at h
  · split at h
    · split at h
      · rename_i hb
        simp only [Except.ok.injEq] at h
        subst h
        obtain ⟨l, _, hl⟩ := Option.bind_eq_some_iff.1 hb
        exact makeDate_valid hl
      · simp at h
    · simp at h
  · simp at h

theorem optParse_valid {a : Option DateArg} {o : Option DateTime} (h : optParse a = .ok o) :
    ∀ d, o = some d → d.valid = true := by
  intro d hd
  subst hd
  cases a with
  | none => simp [optParse] at h
  | some a =>
    simp only [optParse, bind, Except.bind, pure, Except.pure] at h
    cases a with
    | str s =>
      simp only [DateArg.parse] at h
      cases hs : stringToDatetime s with
      | error e => rw [hs] at h; simp at h
      | ok d' =>
        rw [hs] at h
        simp only [Except.ok.injEq, Option.some.injEq] at h
        subst h
        exact stringToDatetime_valid hs
    | datetime x => simp [DateArg.parse] at h

/-! ### C69 -/

private theorem limited_spec (limit : Option Int) (rows : List Entry) :
    (∃ hidden, hidden ++ limited limit rows = rows) ∧
    (limited limit rows).length = match limit with
      | none => rows.length
      | some n => if n < 0 then rows.length else min n.toNat rows.length := by
  unfold limited
  cases limit with
  | none => exact ⟨⟨[], rfl⟩, rfl⟩
  | some n =>
    dsimp only
    by_cases h : n < 0
    · rw [if_pos h, if_pos h]; exact ⟨⟨[], rfl⟩, rfl⟩
    · rw [if_neg h, if_neg h]
      refine ⟨⟨(rows.reverse.drop n.toNat).reverse, ?_⟩, by simp⟩
      rw [← List.reverse_append, List.take_append_drop, List.reverse_reverse]

open Classical in
/-- The entries selected are those satisfying all filters, in the order of recording, and of those the
last `maximumEntries`. -/
theorem C69_selected {q : Query} {db : Db} {rows : List Entry} {time : Entry → DateTime}
    (ht : ∀ e ∈ db, e.time = (time e).fmt ∧ (time e).valid = true) (h : select q db = .ok rows) :
    ∃ start stop, optParse q.start = .ok start ∧ optParse q.stop = .ok stop ∧
      (∃ hidden, hidden ++ rows = db.filter
        (fun e => decide (Wanted q start stop ((maxSession db).getD 0 : Nat) (time e) e))) ∧
      rows.length = match q.limit with
        | none => (db.filter
          (fun e => decide (Wanted q start stop ((maxSession db).getD 0 : Nat) (time e) e))).length
        | some n => if n < 0 then (db.filter
            (fun e => decide (Wanted q start stop ((maxSession db).getD 0 : Nat) (time e) e))).length
          else min n.toNat (db.filter
            (fun e => decide (Wanted q start stop ((maxSession db).getD 0 : Nat) (time e) e))).length := by
  unfold select at h
  cases hs : optParse q.start with
  | error e => rw [hs] at h; simp [bind, Except.bind] at h
  | ok start =>
    cases hp : optParse q.stop with
    | error e => rw [hs, hp] at h; simp [bind, Except.bind] at h
    | ok stop =>
      rw [hs, hp] at h
      simp only [bind, Except.bind, pure, Except.pure, Except.ok.injEq] at h
      have hf : db.filter (whereCond q start stop ((maxSession db).getD 0 : Nat)) = db.filter
          (fun e => decide (Wanted q start stop ((maxSession db).getD 0 : Nat) (time e) e)) := by
        apply List.filter_congr
        intro e he
        generalize (((maxSession db).getD 0 : Nat) : Int) = m
        obtain ⟨h1, h2⟩ := ht e he
        rw [Bool.eq_iff_iff, decide_eq_true_eq]
        unfold whereCond
        simp only [Bool.and_eq_true, Option.all_eq_true, decide_eq_true_eq, h1]
        constructor
        · rintro ⟨⟨⟨⟨c1, c2⟩, c3⟩, c4⟩, c5⟩
          refine ⟨fun l hl => ?_, fun k hk => ?_, fun d hd => ?_, fun d hd => ?_, fun s hs => c5 s hs⟩
          · have := c1 l hl; omega
          · have := c2 k hk; omega
          · exact (lexLe_fmt (optParse_valid hs d hd) h2).1 (c3 d hd)
          · exact (lexLe_fmt h2 (optParse_valid hp d hd)).1 (c4 d hd)
        · rintro ⟨c1, c2, c3, c4, c5⟩
          refine ⟨⟨⟨⟨fun l hl => ?_, fun k hk => ?_⟩, fun d hd => ?_⟩, fun d hd => ?_⟩, c5⟩
          · have := c1 l hl; omega
          · have := c2 k hk; omega
          · exact (lexLe_fmt (optParse_valid hs d hd) h2).2 (c3 d hd)
          · exact (lexLe_fmt h2 (optParse_valid hp d hd)).2 (c4 d hd)
      refine ⟨start, stop, rfl, rfl, ?_⟩
      rw [hf] at h
      subst h
      exact limited_spec _ _

private theorem render_entries (level : Int) (prev : Option Nat) (rows : List Entry) :
    (render level prev rows).filterMap Item.entry? = rows.filter (visible level) := by
  induction rows generalizing prev with
  | nil => rfl
  | cons e es ih =>
    rw [render, List.filterMap_append, List.filterMap_append, ih]
    by_cases hv : visible level e = true
    · rw [if_pos hv, List.filter_cons_of_pos hv]
      split <;> rfl
    · rw [if_neg hv, List.filter_cons_of_neg hv]
      split <;> rfl

private theorem render_header (level : Int) (rows : List Entry) :
    ∀ (prev : Option Nat) pre e post, render level prev rows = pre ++ .entry e :: post →
      (match (pre.filterMap Item.header?).getLast? with
        | some n => some n
        | none => prev) = some e.session := by
  induction rows with
  | nil =>
    intro prev pre e post h
    cases pre <;> simp [render] at h
  | cons x xs ih =>
    intro prev pre e post h
    rw [render] at h
    by_cases hp : prev = some x.session
    · rw [if_pos hp, List.nil_append] at h
      by_cases hv : visible level x = true
      · rw [if_pos hv] at h
        cases pre with
        | nil =>
          simp only [List.nil_append, List.cons_append, List.cons.injEq, Item.entry.injEq] at h
          rw [← h.1, hp]; rfl
        | cons i pre =>
          simp only [List.cons_append, List.nil_append, List.cons.injEq] at h
          have := ih (some x.session) pre e post h.2
          rw [← h.1, hp]
          exact this
      · rw [if_neg hv, List.nil_append] at h
        rw [hp]
        exact ih _ pre e post h
    · rw [if_neg hp] at h
      cases pre with
      | nil => simp at h
      | cons i pre =>
        simp only [List.cons_append, List.nil_append, List.cons.injEq] at h
        obtain ⟨h0, h⟩ := h
        have key : (match (pre.filterMap Item.header?).getLast? with
            | some n => some n
            | none => some x.session) = some e.session := by
          by_cases hv : visible level x = true
          · rw [if_pos hv] at h
            cases pre with
            | nil =>
              simp only [List.nil_append, List.cons_append, List.cons.injEq, Item.entry.injEq] at h
              rw [← h.1]; rfl
            | cons j pre =>
              simp only [List.cons_append, List.nil_append, List.cons.injEq] at h
              have := ih (some x.session) pre e post h.2
              rw [← h.1]
              exact this
          · rw [if_neg hv, List.nil_append] at h
            exact ih _ pre e post h
        rw [← h0]
        rw [List.filterMap_cons_some (show Item.header? (.header x.session) = some x.session from rfl)]
        cases hl : (pre.filterMap Item.header?).getLast? with
        | none =>
          rw [hl] at key
          have hnil : pre.filterMap Item.header? = [] := List.getLast?_eq_none_iff.1 hl
          rw [hnil]
          exact key
        | some n =>
          rw [hl] at key
          rw [List.getLast?_cons, hl]
          exact key

/-- The output shows the selected entries visible at the level of detail, each below a heading with its
session number. -/
theorem C69_output {level : Int} {q : Query} {db : Db} {items : List Item}
    (h : showLog level q db = .ok items) :
    ∃ rows, select q db = .ok rows ∧ items.filterMap Item.entry? = rows.filter (visible level) ∧
      ∀ pre e post, items = pre ++ .entry e :: post →
        (pre.filterMap Item.header?).getLast? = some e.session := by
  unfold showLog at h
  cases hc : checkQuery level q with
  | error e => rw [hc] at h; simp [bind, Except.bind] at h
  | ok u =>
    cases hs : select q db with
    | error e => rw [hc, hs] at h; simp [bind, Except.bind] at h
    | ok rows =>
      rw [hc, hs] at h
      simp only [bind, Except.bind, pure, Except.pure, Except.ok.injEq] at h
      subst h
      refine ⟨rows, rfl, render_entries _ _ _, fun pre e post he => ?_⟩
      have := render_header level rows none pre e post he
      cases hl : (pre.filterMap Item.header?).getLast? with
      | none => rw [hl] at this; simp at this
      | some n => rw [hl] at this; exact this

/-- Level 3 shows everything, a higher level never shows less, and entries of the user are shown at every
level. -/
theorem C69_levels (e : Entry) :
    visible 3 e = true ∧ (∀ a b, a ≤ b → visible a e = true → visible b e = true) ∧
    (∀ heading, e.kind = "User - " ++ heading → ∀ level, visible level e = true) := by
  have hlev : ∀ l, levelOf e.kind = some l → l ≤ 3 := by
    intro l hl
    unfold levelOf at hl
    simp only [List.lookup] at hl
    repeat' split at hl
    all_goals simp_all
    all_goals omega
  refine ⟨?_, ?_, ?_⟩
  · unfold visible
    split
    · rename_i l hl; have := hlev l hl; simp; omega
    · rfl
  · intro a b hab
    unfold visible
    split
    · simp; omega
    · simp
  · intro heading hk level
    have : levelOf e.kind = none := by
      rw [hk]
      have hne : ∀ k : String, k.toList.head? ≠ some 'U' → (("User - " ++ heading) == k) = false := by
        intro k hkk
        rw [beq_eq_false_iff_ne]
        intro he
        apply hkk
        rw [← he, String.toList_append]
        rfl
      unfold levelOf
      simp only [List.lookup]
      rw [hne "load" (by decide), hne "tl" (by decide), hne "report" (by decide), hne "prep" (by decide),
        hne "run" (by decide), hne "deepRun" (by decide), hne "tuning" (by decide), hne "setSeed" (by decide)]
    unfold visible
    rw [this]

/-- Data preparation is documented as level 1 but not shown there. -/
theorem C69_preparation_level_violated (e : Entry) (h : e.kind = "prep") : visible 1 e = false := by
  unfold visible
  rw [h]
  rfl

/-- Without dates a query is accepted exactly for levels 1 to 3, a least number of sessions that is not
negative, and a most number that is not smaller. -/
theorem C69_accepted_iff {level : Int} {q : Query} (hs : q.start = none) (he : q.stop = none) :
    checkQuery level q = .ok () ↔ 1 ≤ level ∧ level ≤ 3 ∧
      ∀ l, q.least = some l → 0 ≤ l ∧ ∀ k, q.most = some k → l ≤ k := by
  unfold checkQuery
  rw [hs, he]
  by_cases hl : level < 1 ∨ 3 < level
  · simp only [if_pos hl, bind, Except.bind, throw, throwThe, MonadExceptOf.throw]
    constructor
    · intro h; simp at h
    · intro h; omega
  · simp only [if_neg hl, bind, Except.bind, pure, Except.pure, datesReversed, throw, throwThe,
      MonadExceptOf.throw, Bool.false_eq_true, if_false]
    cases q.least with
    | none => simp; omega
    | some l =>
      dsimp only
      by_cases h0 : l < 0
      · rw [if_pos h0]
        constructor
        · intro h; simp at h
        · rintro ⟨_, _, h⟩; have := (h l rfl).1; omega
      · rw [if_neg h0]
        cases q.most with
        | none => simp; omega
        | some k =>
          dsimp only
          by_cases hk : k < l
          · rw [if_pos hk]
            constructor
            · intro h; simp at h
            · rintro ⟨_, _, h⟩; have := (h l rfl).2 k rfl; omega
          · rw [if_neg hk]
            simp; omega

/-- After processes run one after the other, an entry of the session `ago` sessions before the newest one
is selected when `least ≤ ago < most`. -/
theorem C69_sessions_ago (H : List (List Msg)) {l k : Int} {rows : List Entry}
    (h : select { least := some l, most := some k, limit := none } (numbered H) = .ok rows) (e : Entry) :
    e ∈ rows ↔ e ∈ numbered H ∧
      l ≤ ((H.filter (fun ms => !ms.isEmpty)).length : Int) - 1 - e.session ∧
      ((H.filter (fun ms => !ms.isEmpty)).length : Int) - 1 - e.session < k := by
  simp only [select, optParse, bind, Except.bind, pure, Except.pure, limited, Except.ok.injEq] at h
  subst h
  rw [List.mem_filter]
  refine and_congr_right (fun he => ?_)
  have hmax : ((maxSession (numbered H)).getD 0 : Int) = ((H.filter (fun ms => !ms.isEmpty)).length : Int) - 1 := by
    have hs := setup_numbered H
    unfold setup at hs
    cases hm : maxSession (numbered H) with
    | none =>
      rw [maxSession, List.max?_eq_none_iff, List.map_eq_nil_iff] at hm
      rw [hm] at he; simp at he
    | some m =>
      rw [hm] at hs
      dsimp only at hs
      simp only [Option.getD_some]
      omega
  simp only [whereCond, Option.all_some, Option.all_none, Bool.and_true, Bool.and_eq_true, decide_eq_true_eq]
  rw [show (((maxSession (numbered H)).getD 0 : Nat) : Int) =
    ((H.filter (fun ms => !ms.isEmpty)).length : Int) - 1 from hmax]
  omega

/-- A session exactly `mostSessionsAgo` sessions ago is never included, although it is documented as the
last one included; equal bounds are accepted and show nothing. -/
theorem C69_most_sessions_excluded_violated {q : Query} {db : Db} {rows : List Entry} {k : Int}
    (hk : q.most = some k) (h : select q db = .ok rows) :
    (∀ e ∈ rows, ((maxSession db).getD 0 : Int) - e.session < k) ∧ (q.least = some k → rows = []) := by
  unfold select at h
  cases hs : optParse q.start with
  | error e => rw [hs] at h; simp [bind, Except.bind] at h
  | ok start =>
    cases hp : optParse q.stop with
    | error e => rw [hs, hp] at h; simp [bind, Except.bind] at h
    | ok stop =>
      rw [hs, hp] at h
      simp only [bind, Except.bind, pure, Except.pure, Except.ok.injEq] at h
      subst h
      obtain ⟨hid, hh⟩ := (limited_spec q.limit
        (db.filter (whereCond q start stop ((maxSession db).getD 0 : Nat)))).1
      have hmem : ∀ e ∈ limited q.limit (db.filter (whereCond q start stop ((maxSession db).getD 0 : Nat))),
          whereCond q start stop ((maxSession db).getD 0 : Nat) e = true := by
        intro e he
        have : e ∈ hid ++ limited q.limit (db.filter (whereCond q start stop ((maxSession db).getD 0 : Nat))) :=
          List.mem_append_right _ he
        rw [hh] at this
        exact (List.mem_filter.1 this).2
      refine ⟨fun e he => ?_, fun hl => ?_⟩
      · have := hmem e he
        unfold whereCond at this
        simp only [hk, Option.all_some, Bool.and_eq_true, decide_eq_true_eq] at this
        omega
      · rw [List.eq_nil_iff_forall_not_mem]
        intro e he
        have := hmem e he
        unfold whereCond at this
        simp only [hk, hl, Option.all_some, Bool.and_eq_true, decide_eq_true_eq] at this
        omega

/-- The limit counts entries that the level of detail then hides: behind `n` deep entries an earlier one
is not shown, although nothing else is. -/
theorem C69_limit_counts_hidden_violated (n : Nat) (t : List Char) (i : List Char) :
    (showLog 1 { limit := some ((n : Int) + 1) }
      (⟨t, 0, "load", i⟩ :: List.replicate (n + 1) ⟨t, 0, "deepRun", i⟩)).map
      (fun items => items.filterMap Item.entry?) = .ok [] := by
  have hm : maxSession (⟨t, 0, "load", i⟩ :: List.replicate (n + 1) ⟨t, 0, "deepRun", i⟩) = some 0 := by
    unfold maxSession
    rw [List.max?_eq_some_iff]
    simp
  have hc : ∀ e ∈ (⟨t, 0, "load", i⟩ :: List.replicate (n + 1) ⟨t, 0, "deepRun", i⟩ : Db),
      whereCond { limit := some ((n : Int) + 1) } none none ((0 : Nat) : Int) e = true := by
    intro e he
    have : e.session = 0 := by
      rcases List.mem_cons.1 he with rfl | he
      · rfl
      · rw [(List.mem_replicate.1 he).2]
    simp [whereCond, this]
  unfold showLog
  rw [(C69_accepted_iff (q := { limit := some ((n : Int) + 1) }) rfl rfl).2 (by simp)]
  simp only [select, optParse, bind, Except.bind, pure, Except.pure, hm, Option.getD_some]
  rw [List.filter_eq_self.2 hc]
  simp only [limited]
  rw [if_neg (by omega), show ((n : Int) + 1).toNat = n + 1 by omega, List.reverse_cons,
    List.take_append_of_le_length (by simp), List.reverse_replicate, List.take_of_length_le (by simp),
    List.reverse_replicate]
  simp only [Except.map]
  rw [render_entries]
  congr 1
  rw [List.filter_eq_nil_iff]
  intro e he
  rw [(List.mem_replicate.1 he).2, show visible 1 ⟨t, 0, "deepRun", i⟩ = false from rfl]
  simp

/-- `datetime` objects are documented for the dates but refused. -/
theorem C69_datetime_object_violated {q : Query} {db : Db} {d : DateTime}
    (h : q.start = some (.datetime d)) : select q db = .error .AttributeError := by
  unfold select
  rw [h]
  rfl

/-- The parts of a date need not be digits only. -/
theorem C69_loose_date_violated :
    stringToDatetime ['2', '0', '1', '8', '-', '+', '3', '-', ' ', '4'] = .ok ⟨2018, 3, 4, 0, 0, 0⟩ := by
  decide +kernel

/-! ### Text search -/

private theorem like_any (p t : List Char) :
    like ('%' :: p) t = (List.range (t.length + 1)).any (fun i => like p (t.drop i)) := by
  cases t <;> rfl

private theorem like_cons {c : Char} (hc : c ≠ '%') (p : List Char) (d : Char) (t : List Char) :
    like (c :: p) (d :: t) = ((decide (c = '_') || decide (c.toLower = d.toLower)) && like p t) := by
  show (if c = '%' then _ else _) = _
  rw [if_neg hc]

private theorem like_nil {c : Char} (hc : c ≠ '%') (p : List Char) : like (c :: p) [] = false := by
  show (if c = '%' then _ else _) = _
  rw [if_neg hc]

private theorem like_percent {p t : List Char} :
    like ('%' :: p) t = true ↔ ∃ a b, t = a ++ b ∧ like p b = true := by
  rw [like_any, List.any_eq_true]
  constructor
  · rintro ⟨i, _, hi⟩
    exact ⟨t.take i, t.drop i, (List.take_append_drop i t).symm, hi⟩
  · rintro ⟨a, b, rfl, hb⟩
    refine ⟨a.length, by simp; omega, ?_⟩
    rw [List.drop_left]; exact hb

private theorem like_tail (t : List Char) : like ['%'] t = true :=
  like_percent.2 ⟨t, [], by simp, rfl⟩

private theorem like_prefix {x y b : List Char} (h : y.map Char.toLower = x.map Char.toLower) :
    like (x ++ ['%']) (y ++ b) = true := by
  induction x generalizing y with
  | nil =>
    cases y with
    | nil => exact like_tail b
    | cons d y => simp at h
  | cons c x ih =>
    cases y with
    | nil => simp at h
    | cons d y =>
      simp only [List.map_cons, List.cons.injEq] at h
      rw [List.cons_append]
      by_cases hc : c = '%'
      · subst hc
        exact like_percent.2 ⟨[d], y ++ b, rfl, ih h.2⟩
      · rw [List.cons_append, like_cons hc]
        simp only [Bool.and_eq_true, Bool.or_eq_true, decide_eq_true_eq]
        exact ⟨Or.inr h.1.symm, ih h.2⟩

/-- A search finds every entry whose type or text contains the searched text. -/
theorem C69_search_finds {x : List Char} {e : Entry} (h : Occurs x e.kind.toList ∨ Occurs x e.info) :
    (Search.text x).hits e = true := by
  unfold Search.hits
  rw [Bool.or_eq_true]
  refine h.imp ?_ ?_ <;>
  · rintro ⟨a, y, b, ht, hy⟩
    rw [ht, List.append_assoc]
    exact like_percent.2 ⟨a, y ++ b, rfl, like_prefix hy⟩

/-- A text without `%` and `_` is found only where it occurs. -/
theorem C69_search_exact_partial {x : List Char} (hx : ∀ c ∈ x, c ≠ '%' ∧ c ≠ '_') {e : Entry} :
    (Search.text x).hits e = true ↔ Occurs x e.kind.toList ∨ Occurs x e.info := by
  refine ⟨fun h => ?_, C69_search_finds⟩
  have key : ∀ (x : List Char), (∀ c ∈ x, c ≠ '%' ∧ c ≠ '_') → ∀ t, like (x ++ ['%']) t = true →
      ∃ y b, t = y ++ b ∧ y.map Char.toLower = x.map Char.toLower := by
    intro x
    induction x with
    | nil => intro _ t _; exact ⟨[], t, rfl, rfl⟩
    | cons c x ih =>
      intro hx t ht
      obtain ⟨h1, h2⟩ := hx c (by simp)
      cases t with
      | nil => rw [List.cons_append, like_nil h1] at ht; simp at ht
      | cons d t =>
        rw [List.cons_append, like_cons h1] at ht
        simp only [Bool.and_eq_true, Bool.or_eq_true, decide_eq_true_eq, h2, false_or] at ht
        obtain ⟨y, b, rfl, hy⟩ := ih (fun c hc => hx c (List.mem_cons_of_mem _ hc)) t ht.2
        exact ⟨d :: y, b, rfl, by rw [List.map_cons, List.map_cons, hy, ht.1]⟩
  unfold Search.hits at h
  rw [Bool.or_eq_true] at h
  refine h.imp ?_ ?_ <;>
  · intro h
    obtain ⟨a, r, ht, hr⟩ := like_percent.1 h
    obtain ⟨y, b, rfl, hy⟩ := key x hx r hr
    exact ⟨a, y, b, by rw [ht, List.append_assoc], hy⟩

/-- `_` and `%` in the searched text stand for anything. -/
theorem C69_search_wildcards_violated :
    (Search.text "a_b".toList).hits ⟨[], 0, "load", "axb".toList⟩ = true ∧
    (Search.text "5%".toList).hits ⟨[], 0, "load", "57".toList⟩ = true := by decide

/-! ### A case -/

def entryAt (d : DateTime) (n : Nat) (k : String) : Entry := ⟨d.fmt, n, k, []⟩

example : showLog 1 { most := some 2, start := some (.str "2018-03-24 10:30".toList) }
    [entryAt ⟨2018, 3, 24, 9, 0, 0⟩ 0 "load", entryAt ⟨2018, 3, 24, 10, 30, 0⟩ 0 "load",
      entryAt ⟨2018, 3, 24, 11, 0, 0⟩ 0 "run", entryAt ⟨2018, 3, 25, 0, 0, 0⟩ 1 "report"] =
    .ok [.header 0, .entry (entryAt ⟨2018, 3, 24, 10, 30, 0⟩ 0 "load"), .header 1,
      .entry (entryAt ⟨2018, 3, 25, 0, 0, 0⟩ 1 "report")] := by decide +kernel

end Nimble.Log
