import Verif.Model.Mtx
import Verif.Props.CsvLoad
import Verif.Lemmas.CollapseSparse

/-!
# C98: names and values in Matrix Market files
-/

namespace Nimble.Mtx
open Csv

/-! ## Specification -/

/-- Names a Matrix Market file can hold: no comma, no line break, no white space at the end of the last one, and not
just one empty name. -/
structure Storable (l : List Str) : Prop where
  plain : ∀ n ∈ l, ',' ∉ n ∧ '\n' ∉ n
  last : ∀ n, l.getLast? = some n → ∀ c, n.getLast? = some c → ws c = false
  nonempty : l ≠ [] ∧ l ≠ [[]]

/-! ## Lemmas -/

theorem splitOn_ne_nil (d : Char) (s : Str) : splitOn d s ≠ [] := by
  cases s with
  | nil => simp [splitOn]
  | cons c r =>
    unfold splitOn
    split
    · simp
    · cases splitOn d r <;> simp [consLine]

theorem splitOn_plain {d : Char} {s : Str} (h : d ∉ s) : splitOn d s = [s] := by
  induction s with
  | nil => rfl
  | cons c r ih =>
    have hc : c ≠ d := fun hc => h (by simp [hc])
    unfold splitOn
    rw [if_neg hc, ih (fun hr => h (List.mem_cons_of_mem _ hr))]
    rfl

theorem splitOn_append {d : Char} {s t : Str} (h : d ∉ s) : splitOn d (s ++ d :: t) = s :: splitOn d t := by
  induction s with
  | nil => simp [splitOn]
  | cons c r ih =>
    have hc : c ≠ d := fun hc => h (by simp [hc])
    rw [List.cons_append, splitOn, if_neg hc, ih (fun hr => h (List.mem_cons_of_mem _ hr))]
    rfl

theorem not_mem_splitOn {d : Char} {s : Str} : ∀ p ∈ splitOn d s, d ∉ p := by
  induction s with
  | nil => simp [splitOn]
  | cons c r ih =>
    unfold splitOn
    split
    · intro p hp
      rcases List.mem_cons.1 hp with rfl | hp
      · simp
      · exact ih p hp
    · next hc =>
      cases hs : splitOn d r with
      | nil => exact absurd hs (splitOn_ne_nil d r)
      | cons a l =>
        rw [hs] at ih
        intro p hp
        rcases List.mem_cons.1 hp with rfl | hp
        · intro hd
          rcases List.mem_cons.1 hd with rfl | hd
          · exact hc rfl
          · exact ih a (by simp) hd
        · exact ih p (List.mem_cons_of_mem _ hp)

theorem splitOn_join {l : List Str} (hne : l ≠ []) (h : ∀ n ∈ l, ',' ∉ n) : splitOn ',' (joinComma l) = l := by
  induction l with
  | nil => exact absurd rfl hne
  | cons a l ih =>
    cases l with
    | nil => exact splitOn_plain (h a (by simp))
    | cons b l =>
      rw [joinComma, splitOn_append (h a (by simp)), ih (by simp) (fun n hn => h n (List.mem_cons_of_mem _ hn))]

theorem join_splitOn (s : Str) : joinComma (splitOn ',' s) = s := by
  induction s with
  | nil => rfl
  | cons c r ih =>
    unfold splitOn
    cases hs : splitOn ',' r with
    | nil => exact absurd hs (splitOn_ne_nil ',' r)
    | cons a l =>
      rw [hs] at ih
      split
      · next hc => rw [joinComma, ih, hc]; rfl
      · rw [← ih]
        cases l with
        | nil => rfl
        | cons b l => simp [consLine, joinComma]

theorem mem_splitOn {d c : Char} {s p : Str} (hp : p ∈ splitOn d s) (hc : c ∈ p) : c ∈ s := by
  induction s generalizing p with
  | nil =>
    simp only [splitOn, List.mem_singleton] at hp
    subst hp
    cases hc
  | cons x r ih =>
    unfold splitOn at hp
    split at hp
    · rcases List.mem_cons.1 hp with rfl | hp
      · cases hc
      · exact List.mem_cons_of_mem _ (ih hp hc)
    · cases hs : splitOn d r with
      | nil => exact absurd hs (splitOn_ne_nil d r)
      | cons a l =>
        rw [hs] at hp ih
        rcases List.mem_cons.1 hp with rfl | hp
        · rcases List.mem_cons.1 hc with rfl | hc
          · simp
          · exact List.mem_cons_of_mem _ (ih (by simp) hc)
        · exact List.mem_cons_of_mem _ (ih (List.mem_cons_of_mem _ hp) hc)

theorem splitLines_line {s t : Str} (h : '\n' ∉ s) : splitLines (s ++ '\n' :: t) = (s ++ ['\n']) :: splitLines t := by
  induction s with
  | nil => rw [List.nil_append, splitLines, if_pos rfl]; rfl
  | cons c r ih =>
    have hc : c ≠ '\n' := fun hc => h (by simp [hc])
    rw [List.cons_append, splitLines, if_neg hc, ih (fun hr => h (List.mem_cons_of_mem _ hr))]
    rfl

/-- In a line a line break is the last character. -/
theorem splitLines_dropLast {t : Str} : ∀ l ∈ splitLines t, '\n' ∉ l.dropLast := by
  induction t with
  | nil => simp [splitLines]
  | cons c r ih =>
    unfold splitLines
    split
    · intro l hl
      rcases List.mem_cons.1 hl with rfl | hl
      · simp
      · exact ih l hl
    · next hc =>
      cases hs : splitLines r with
      | nil => simp [consLine]
      | cons a l =>
        rw [hs] at ih
        intro p hp
        rcases List.mem_cons.1 hp with rfl | hp
        · cases a with
          | nil => simp
          | cons x a =>
            rw [List.dropLast_cons_of_ne_nil (by simp)]
            intro hm
            rcases List.mem_cons.1 hm with h | h
            · exact hc h.symm
            · exact ih _ (by simp) h
        · exact ih p (List.mem_cons_of_mem _ hp)

theorem rstrip_last {s : Str} {c : Char} (h : (rstrip s).getLast? = some c) : ws c = false := by
  unfold rstrip at h
  rw [List.getLast?_reverse] at h
  have := List.head?_dropWhile_not ws s.reverse
  rw [h] at this
  simpa using this

theorem rstrip_eq {s : Str} (h : ∀ c, s.getLast? = some c → ws c = false) : rstrip s = s := by
  unfold rstrip
  rw [← List.head?_reverse] at h
  cases hs : s.reverse with
  | nil =>
    have : s = [] := by simpa using hs
    simp [this]
  | cons a l =>
    rw [hs] at h
    rw [List.dropWhile_cons_of_neg (by rw [h a rfl]; simp), ← hs, List.reverse_reverse]

theorem rstrip_newline (s : Str) : rstrip (s ++ ['\n']) = rstrip s := by
  unfold rstrip
  rw [List.reverse_append]
  show (List.dropWhile ws ('\n' :: s.reverse)).reverse = _
  rw [List.dropWhile_cons_of_pos (by decide)]

theorem mem_rstrip {s : Str} {c : Char} (h : c ∈ rstrip s) (hs : '\n' ∉ s.dropLast) : c ≠ '\n' := by
  rintro rfl
  unfold rstrip at h
  rw [List.mem_reverse] at h
  cases hr : s.reverse with
  | nil => rw [hr] at h; cases h
  | cons a l =>
    rw [hr] at h
    have hsl : s = l.reverse ++ [a] := by
      have := congrArg List.reverse hr
      simpa using this
    have hl : '\n' ∉ l := by
      rw [hsl, List.dropLast_concat] at hs
      simpa using hs
    by_cases ha : ws a = true
    · rw [List.dropWhile_cons_of_pos ha] at h
      exact hl ((List.dropWhile_sublist _).subset h)
    · rw [List.dropWhile_cons_of_neg ha] at h
      rcases List.mem_cons.1 h with rfl | h
      · exact ha (by decide)
      · exact hl h

theorem getLast?_joinComma {l : List Str} {n : Str} (hn : l.getLast? = some n) (h : n ≠ []) :
    (joinComma l).getLast? = n.getLast? := by
  induction l with
  | nil => cases hn
  | cons a l ih =>
    cases l with
    | nil =>
      simp only [List.getLast?_singleton, Option.some.injEq] at hn
      rw [hn]; rfl
    | cons b l =>
      have hn' : (b :: l).getLast? = some n := by rw [List.getLast?_cons_cons] at hn; exact hn
      rw [joinComma, List.getLast?_append]
      have := ih hn'
      cases hj : joinComma (b :: l) with
      | nil =>
        rw [hj] at this
        exact absurd (List.getLast?_eq_none_iff.1 this.symm) h
      | cons x xs =>
        rw [List.getLast?_cons_cons, ← hj, this]
        cases hg : n.getLast? with
        | none => exact absurd (List.getLast?_eq_none_iff.1 hg) h
        | some c => rfl

theorem getLast?_joinComma_nil {l : List Str} (hn : l.getLast? = some []) (h : l ≠ [[]]) :
    (joinComma l).getLast? = some ',' := by
  induction l with
  | nil => cases hn
  | cons a l ih =>
    cases l with
    | nil =>
      simp only [List.getLast?_singleton, Option.some.injEq] at hn
      exact absurd (by rw [hn]) h
    | cons b l =>
      have hn' : (b :: l).getLast? = some [] := by rw [List.getLast?_cons_cons] at hn; exact hn
      rw [joinComma, List.getLast?_append]
      by_cases hb : b :: l = [[]]
      · rw [hb]; simp [joinComma]
      · have := ih hn' hb
        cases hj : joinComma (b :: l) with
        | nil => rw [hj] at this; cases this
        | cons x xs =>
          rw [List.getLast?_cons_cons, ← hj, this]
          rfl

theorem Storable.tail_ok {l : List Str} (h : Storable l) : ∀ c, (joinComma l).getLast? = some c → ws c = false := by
  intro c hc
  cases hl : l.getLast? with
  | none => exact absurd (List.getLast?_eq_none_iff.1 hl) h.nonempty.1
  | some n =>
    by_cases hn : n = []
    · subst hn
      rw [getLast?_joinComma_nil hl h.nonempty.2] at hc
      cases hc
      decide
    · rw [getLast?_joinComma hl hn] at hc
      exact h.last n hl c hc

/-- A line with names is read back. -/
theorem namesOf_line {l : List Str} (h : Storable l) : namesOf ('%' :: ('#' :: joinComma l ++ ['\n'])) = some l := by
  unfold namesOf
  show (if splitOn ',' (rstrip (joinComma l ++ ['\n'])) = [[]] then none else
    some (splitOn ',' (rstrip (joinComma l ++ ['\n'])))) = _
  rw [rstrip_newline, rstrip_eq h.tail_ok, splitOn_join h.nonempty.1 (fun n hn => (h.plain n hn).1), if_neg h.nonempty.2]

theorem namesOf_empty : namesOf ['%', '#', '\n'] = none := by decide

theorem newline_join {l : List Str} (h : ∀ n ∈ l, '\n' ∉ n) : '\n' ∉ joinComma l := by
  induction l with
  | nil => simp [joinComma]
  | cons a l ih =>
    cases l with
    | nil => exact h a (by simp)
    | cons b l =>
      rw [joinComma, List.mem_append, List.mem_cons]
      rintro (hm | hm | hm)
      · exact h a (by simp) hm
      · cases hm
      · exact ih (fun n hn => h n (List.mem_cons_of_mem _ hn)) hm

/-! ## Theorems -/

/-- What is written for the names of an axis: the names, if there are any and they are asked for. -/
def written (includeNames : Bool) (names : Option (List Str)) : Option (List Str) :=
  if includeNames then names else none

/-- The line and what is read from it. -/
theorem line_spec (includeNames : Bool) {names : Option (List Str)} (h : ∀ l, names = some l → Storable l) :
    ∃ s, nameLine (namesSeen includeNames (names.map (·.map some))) ((names.map (·.map some)).getD []) =
        .ok ('#' :: s) ∧ '\n' ∉ s ∧ namesOf ('%' :: ('#' :: s ++ ['\n'])) = written includeNames names ∧
      (namesSeen includeNames (names.map (·.map some)) = false → s = []) := by
  unfold nameLine written
  cases names with
  | none => exact ⟨[], by cases includeNames <;> rfl, by simp, by cases includeNames <;> decide, fun _ => rfl⟩
  | some l =>
    have hl := h l rfl
    have hseen : namesSeen true (some (l.map some)) = true := by
      unfold namesSeen
      cases l with
      | nil => exact absurd rfl hl.nonempty.1
      | cons a l => rfl
    cases includeNames with
    | false => exact ⟨[], rfl, by simp, namesOf_empty, fun _ => rfl⟩
    | true =>
      refine ⟨joinComma l, ?_, newline_join (fun n hn => (hl.plain n hn).2), namesOf_line hl, ?_⟩
      · show (if namesSeen true (some (l.map some)) then _ else _) = _
        rw [hseen, if_pos rfl]
        show (do let ns ← nameTexts (l.map some); return '#' :: joinComma ns) = _
        rw [nameTexts_some]
        rfl
      · intro hc
        exact absurd (hc.symm.trans hseen) (by simp)

/-- **C98 (names).**  For every type of object: when all names are storable, saving to a Matrix Market file succeeds and
loading returns the names that were saved - and none where there are none or they were not asked for. -/
theorem C98_names_partial (k : Kind) {banner rest : Str} (hb : ∃ r, banner = '%' :: '%' :: r ∧ '\n' ∉ r)
    (hr : rest.head? ≠ some '%') (includeNames : Bool) {pnames fnames : Option (List Str)}
    (hp : ∀ l, pnames = some l → Storable l) (hf : ∀ l, fnames = some l → Storable l) {rows cols : Nat}
    (h0 : 0 < rows) (h1 : 0 < cols) :
    ∃ text, saveMtx k banner rest includeNames (pnames.map (·.map some)) (fnames.map (·.map some)) rows cols = .ok text ∧
      loadNames text = (written includeNames pnames, written includeNames fnames) := by
  obtain ⟨sp, p1, p2, p3, _⟩ := line_spec includeNames hp
  obtain ⟨sf, f1, f2, f3, f4⟩ := line_spec includeNames hf
  obtain ⟨br, rfl, hbr⟩ := hb
  unfold saveMtx
  rw [if_neg (by omega)]
  dsimp only
  rw [p1, f1]
  refine ⟨_, rfl, ?_⟩
  unfold loadNames
  have hrest : ∀ p f, scan true p f (splitLines rest) = (p, f) := by
    intro p f
    cases hs : splitLines rest with
    | nil => rfl
    | cons l ls =>
      have hhead : l.head? = rest.head? := by
        cases hrc : rest with
        | nil => rw [hrc] at hs; cases hs
        | cons c t =>
          rw [hrc] at hs
          unfold splitLines at hs
          split at hs
          · next hc =>
            rw [List.cons.injEq] at hs
            rw [← hs.1, hc]; rfl
          · cases h2 : splitLines t with
            | nil => rw [h2] at hs; simp only [consLine, List.cons.injEq] at hs; rw [← hs.1]; rfl
            | cons a b => rw [h2] at hs; simp only [consLine, List.cons.injEq] at hs; rw [← hs.1]; rfl
      unfold scan isComment
      rw [hhead, if_neg (by simpa using hr)]
  have hbanner : splitLines (('%' :: '%' :: br) ++ '\n' :: (commentText k (namesSeen includeNames (fnames.map (·.map some)))
      ('#' :: sp) ('#' :: sf) ++ rest)) = (('%' :: '%' :: br) ++ ['\n']) ::
      splitLines (commentText k (namesSeen includeNames (fnames.map (·.map some))) ('#' :: sp) ('#' :: sf) ++ rest) :=
    splitLines_line (by simpa using hbr)
  have hscan0 : ∀ ls, scan false none none ((('%' :: '%' :: br) ++ ['\n']) :: ls) = scan false none none ls := by
    intro ls
    rw [scan, if_pos (by rfl), if_neg (by simp [holdsNames])]
  have hscanP : ∀ ls, scan false none none (('%' :: ('#' :: sp ++ ['\n'])) :: ls) =
      scan true (written includeNames pnames) none ls := by
    intro ls
    rw [scan, if_pos (by rfl), if_pos (by rfl), if_neg (by simp), p3]
  have hscanF : ∀ p ls, scan true p none (('%' :: ('#' :: sf ++ ['\n'])) :: ls) =
      scan true p (written includeNames fnames) ls := by
    intro p ls
    rw [scan, if_pos (by rfl), if_pos (by rfl), if_pos rfl, f3]
  have hscanE : ∀ p f ls, scan true p f (['%', '\n'] :: ls) = scan true p f ls := by
    intro p f ls
    rw [scan, if_pos (by rfl), if_neg (by decide)]
  have hlineP : ∀ t, splitLines ('%' :: ('#' :: sp ++ '\n' :: t)) = ('%' :: ('#' :: sp ++ ['\n'])) :: splitLines t :=
    fun t => splitLines_line (s := '%' :: '#' :: sp) (by simpa using p2)
  have hlineF : ∀ t, splitLines ('%' :: ('#' :: sf ++ '\n' :: t)) = ('%' :: ('#' :: sf ++ ['\n'])) :: splitLines t :=
    fun t => splitLines_line (s := '%' :: '#' :: sf) (by simpa using f2)
  have hlineE : ∀ t, splitLines ('%' :: '\n' :: t) = ['%', '\n'] :: splitLines t :=
    fun t => splitLines_line (s := ['%']) (by decide)
  have hnp : '\n' ∉ '#' :: sp := by simpa using p2
  have hnf : '\n' ∉ '#' :: sf := by simpa using f2
  rw [hbanner, hscan0]
  have hwF : namesSeen includeNames (fnames.map (·.map some)) = false → written includeNames fnames = none := by
    intro hs
    rw [← f3, f4 hs]
    decide
  have three : splitOn '\n' (('#' :: sp) ++ '\n' :: (('#' :: sf) ++ ['\n'])) = ['#' :: sp, '#' :: sf, []] := by
    rw [splitOn_append hnp, splitOn_append hnf]
    rfl
  have two : splitOn '\n' (('#' :: sp) ++ '\n' :: ('#' :: sf)) = ['#' :: sp, '#' :: sf] := by
    rw [splitOn_append hnp, splitOn_plain hnf]
  have done3 : scan false none none (splitLines (('%' :: ('#' :: sp ++ '\n' :: ('%' :: ('#' :: sf ++ '\n' ::
      ('%' :: '\n' :: rest))))))) = (written includeNames pnames, written includeNames fnames) := by
    rw [hlineP, hscanP, hlineF, hscanF, hlineE, hscanE, hrest]
  have done2 : scan false none none (splitLines (('%' :: ('#' :: sp ++ '\n' :: ('%' :: ('#' :: sf ++ '\n' ::
      rest)))))) = (written includeNames pnames, written includeNames fnames) := by
    rw [hlineP, hscanP, hlineF, hscanF, hrest]
  have done1 : namesSeen includeNames (fnames.map (·.map some)) = false →
      scan false none none (splitLines (('%' :: ('#' :: sp ++ '\n' :: rest)))) =
      (written includeNames pnames, written includeNames fnames) := by
    intro hs
    rw [hlineP, hscanP, hrest, hwF hs]
  cases k with
  | list =>
    unfold commentText
    simpa using done2
  | matrix =>
    unfold commentText comment
    cases hs : namesSeen includeNames (fnames.map (·.map some)) with
    | true =>
      dsimp only
      rw [if_pos rfl, two]
      simpa using done2
    | false =>
      dsimp only
      rw [if_neg (by simp), three]
      simpa using done3
  | dataframe =>
    unfold commentText comment
    cases hs : namesSeen includeNames (fnames.map (·.map some)) with
    | true =>
      dsimp only
      rw [if_pos rfl, two]
      simpa using done2
    | false =>
      dsimp only
      rw [if_neg (by simp), splitOn_plain hnp]
      simpa using done1 hs
  | sparse =>
    unfold commentText comment
    dsimp only
    rw [three]
    simpa using done3

theorem nameTexts_none {l : List (Option Str)} (h : none ∈ l) : nameTexts l = .error .TypeError := by
  induction l with
  | nil => cases h
  | cons a l ih =>
    cases a with
    | none => rfl
    | some a =>
      have := ih (by simpa using h)
      simp only [nameTexts, this, bind, Except.bind]

/-- **C98 (refusal).**  When some but not all points (or features) are named, the file is not written: a TypeError, for
every type of object. -/
theorem C98_default_refused (k : Kind) (banner rest : Str) {pnames fnames : Option (List (Option Str))} {rows cols : Nat}
    (h0 : 0 < rows) (h1 : 0 < cols) {n : Str}
    (h : (∃ l, pnames = some l ∧ none ∈ l ∧ some n ∈ l) ∨ (∃ l, fnames = some l ∧ none ∈ l ∧ some n ∈ l)) :
    saveMtx k banner rest true pnames fnames rows cols = .error .TypeError := by
  have key : ∀ l : List (Option Str), none ∈ l → some n ∈ l → nameLine (namesSeen true (some l)) l =
      .error .TypeError := by
    intro l h1 h2
    have hs : namesSeen true (some l) = true := by
      simp only [namesSeen, Option.getD_some, Bool.true_and, List.any_eq_true]
      exact ⟨_, h2, rfl⟩
    unfold nameLine
    rw [hs, if_pos rfl, nameTexts_none h1]
    rfl
  have either : ∀ b l, nameLine b l = .error .TypeError ∨ ∃ t, nameLine b l = .ok t := by
    intro b l
    unfold nameLine
    cases b with
    | false => exact .inr ⟨_, rfl⟩
    | true =>
      by_cases hm : none ∈ l
      · left; rw [if_pos rfl, nameTexts_none hm]; rfl
      · right
        have : ∃ m : List Str, l = m.map some := by
          refine ⟨l.filterMap id, ?_⟩
          clear key h
          induction l with
          | nil => rfl
          | cons a l ih =>
            cases a with
            | none => simp at hm
            | some a =>
              rw [List.filterMap_cons_some (by rfl), List.map_cons, ← ih (fun h => hm (List.mem_cons_of_mem _ h))]
        obtain ⟨m, rfl⟩ := this
        rw [if_pos rfl, nameTexts_some]
        exact ⟨_, rfl⟩
  unfold saveMtx
  rw [if_neg (by omega)]
  dsimp only
  rcases h with ⟨l, rfl, h1, h2⟩ | ⟨l, rfl, h1, h2⟩
  · rw [Option.getD_some, key l h1 h2]
    rfl
  · rw [Option.getD_some, key l h1 h2]
    rcases either (namesSeen true pnames) (pnames.getD []) with hp | ⟨t, hp⟩
    · rw [hp]; rfl
    · rw [hp]; rfl

/-- No text read as names holds a comma or a line break, and the last one does not end in white space. -/
theorem namesOf_storable {l : Str} (hl : '\n' ∉ l.dropLast) {ns : List Str} (h : namesOf l = some ns) : Storable ns := by
  unfold namesOf at h
  dsimp only at h
  split at h
  · cases h
  · next hne =>
    cases h
    have hd : '\n' ∉ (l.drop 2).dropLast := by
      match l, hl with
      | [], _ => simp
      | [a], _ => simp
      | [a, b], _ => simp
      | a :: b :: c :: r, hl =>
        intro hm
        apply hl
        rw [List.dropLast_cons_of_ne_nil (by simp), List.dropLast_cons_of_ne_nil (by simp)]
        exact List.mem_cons_of_mem _ (List.mem_cons_of_mem _ hm)
    refine ⟨fun n hn => ⟨not_mem_splitOn n hn, fun hc => mem_rstrip (mem_splitOn hn hc) hd rfl⟩, ?_,
      splitOn_ne_nil _ _, hne⟩
    intro n hn c hc
    have := getLast?_joinComma hn (by rintro rfl; cases hc)
    rw [join_splitOn, hc] at this
    exact rstrip_last this

theorem scan_storable {seen : Bool} {p f : Option (List Str)} {ls : List Str} (hls : ∀ l ∈ ls, '\n' ∉ l.dropLast)
    (hp : ∀ l, p = some l → Storable l) (hf : ∀ l, f = some l → Storable l) :
    (∀ l, (scan seen p f ls).1 = some l → Storable l) ∧ (∀ l, (scan seen p f ls).2 = some l → Storable l) := by
  induction ls generalizing seen p f with
  | nil => exact ⟨hp, hf⟩
  | cons a ls ih =>
    have ha := hls a (by simp)
    have hls' := fun l hl => hls l (List.mem_cons_of_mem a hl)
    unfold scan
    split
    · split
      · split
        · exact ih hls' hp (fun l hl => namesOf_storable ha hl)
        · exact ih hls' (fun l hl => namesOf_storable ha hl) hf
      · exact ih hls' hp hf
    · exact ⟨hp, hf⟩

/-- **C98 (violation).**  Names which are not storable - with a comma or a line break, with white space at the end of the
last one - are never read back: no text at all, so no file saved, makes the loader return them. -/
theorem C98_lost_violated {l : List Str} (h : ¬ Storable l) (text : Str) :
    (loadNames text).1 ≠ some l ∧ (loadNames text).2 ≠ some l := by
  obtain ⟨h1, h2⟩ := scan_storable (seen := false) (p := none) (f := none) (ls := splitLines text)
    (fun l hl => splitLines_dropLast l hl) (fun _ h => by cases h) (fun _ h => by cases h)
  exact ⟨fun hc => h (h1 l hc), fun hc => h (h2 l hc)⟩

/-! ## Values -/

/-- **C98 (values).**  The values a List object writes to a Matrix Market file are, read column by column as the format
prescribes, the object's table. -/
theorem C98_values {V : Type} {rows : List (List V)} {nF : Nat} (h : ∀ r ∈ rows, r.length = nF) :
    readArray rows.length nF (valuesWritten rows nF) = rows := by
  have hsome : ∀ (l : List (List V)) (j : Nat), (∀ r ∈ l, j < r.length) → ∀ i : Nat,
      (l.filterMap (fun r => r[j]?))[i]? = (l[i]?).bind (fun r => r[j]?) := by
    intro l j hl
    induction l with
    | nil => simp
    | cons r l ih =>
      intro i
      rw [List.filterMap_cons_some (f := fun r => r[j]?) (List.getElem?_eq_getElem (hl r (by simp)))]
      cases i with
      | zero => simp [List.getElem?_eq_getElem (hl r (by simp))]
      | succ i => simpa using ih (fun r hr => hl r (List.mem_cons_of_mem _ hr)) i
  have hlen : ∀ (l : List (List V)) (j : Nat), (∀ r ∈ l, j < r.length) →
      (l.filterMap (fun r => r[j]?)).length = l.length := by
    intro l j hl
    induction l with
    | nil => rfl
    | cons r l ih =>
      rw [List.filterMap_cons_some (f := fun r => r[j]?) (List.getElem?_eq_getElem (hl r (by simp)))]
      simpa using ih (fun r hr => hl r (List.mem_cons_of_mem _ hr))
  have hval : ∀ i j : Nat, i < rows.length → j < nF →
      (valuesWritten rows nF)[j * rows.length + i]? = (rows[i]?).bind (fun r => r[j]?) := by
    intro i j hi hj
    unfold valuesWritten
    rw [Sp.getElem?_flatMap_block _ rows.length (List.range nF) (fun j hj => hlen rows j (fun r hr => by
      rw [h r hr]; simpa using hj)) hi, List.getElem?_range hj, Option.bind_some,
      hsome rows j (fun r hr => by rw [h r hr]; exact hj)]
  unfold readArray
  apply List.ext_getElem?
  intro i
  rw [List.getElem?_map]
  by_cases hi : i < rows.length
  · rw [List.getElem?_range hi, List.getElem?_eq_getElem hi, Option.map_some]
    congr 1
    have hr := h rows[i] (List.getElem_mem hi)
    have : ∀ j ∈ List.range nF, (valuesWritten rows nF)[j * rows.length + i]? = (rows[i])[j]? := by
      intro j hj
      rw [hval i j hi (by simpa using hj), List.getElem?_eq_getElem hi, Option.bind_some]
    rw [List.filterMap_congr this, ← hr]
    generalize rows[i] = r
    clear this hr
    induction r with
    | nil => rfl
    | cons a r ih =>
      rw [List.length_cons, List.range_succ_eq_map, List.filterMap_cons_some (by rfl), List.filterMap_map]
      congr 1
  · rw [List.getElem?_eq_none (by simpa using hi), List.getElem?_eq_none (by simpa using hi)]
    rfl

/-! ## Examples -/

/-- A case of `C98_names_partial`: names with blanks inside and with `%` and `#`. -/
example : Storable ["a b".toList, "%#".toList] where
  plain := by decide
  last := by
    intro n hn c hc
    cases hn
    cases hc
    decide
  nonempty := by decide

example : saveMtx .dataframe "%%MatrixMarket".toList "2 1\n".toList true (some [some "p".toList, some "q".toList])
    (some [some "f".toList]) 2 1 = .ok "%%MatrixMarket\n%#p,q\n%#f\n2 1\n".toList := by decide

example : loadNames "%%MatrixMarket\n%#p,q\n%#\n%\n2 1\n".toList = (some ["p".toList, "q".toList], none) := by decide

/-- Cases of `C98_lost_violated`: a comma in a name gives two names, the blank at the end is lost. -/
example : loadNames "%%MatrixMarket\n%#p,1,q\n%#f \n2 1\n".toList =
    (some ["p".toList, "1".toList, "q".toList], some ["f".toList]) := by decide

example : ¬ Storable ["p,1".toList, "q".toList] := fun h => (h.plain "p,1".toList (by decide)).1 (by decide)

/-- A case of `C98_default_refused`. -/
example : saveMtx .sparse [] [] true (some [some "p".toList, none]) none 2 1 = .error .TypeError := by decide

/-- A case of `C98_values`. -/
example : valuesWritten [[1, 2, 3], [4, 5, 6]] 3 = [1, 4, 2, 5, 3, 6] ∧
    readArray 2 3 [1, 4, 2, 5, 3, 6] = [[1, 2, 3], [4, 5, 6]] := by decide

end Nimble.Mtx
