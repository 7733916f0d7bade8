import Verif.Props.CsvText
import Verif.Props.CsvColumn

/-!
# C37: saving and loading a whole object
-/

namespace Nimble.Csv

variable {F : Type}

/-! ### Specification -/

/-- The row of the feature names. -/
def headerRows (pn : Option (List Str)) : Option (List Str) → List (List Str)
  | some ns => [if pn.isSome then "pointNames".toList :: ns else ns]
  | none => []

/-- The rows of the points, with their names in front. -/
def bodyRows (texts : List (List Str)) : Option (List Str) → List (List Str)
  | some ps => List.zipWith (· :: ·) ps texts
  | none => texts

/-- The rows of texts in the file of an object with the given names. -/
def fileRows (pn fn : Option (List Str)) (texts : List (List Str)) : List (List Str) :=
  headerRows pn fn ++ bodyRows texts pn

/-- The names as nimble keeps them. -/
def asNames (l : Option (List Str)) : Option (List (Option Str)) := l.map (List.map some)

/-- `True` if there are names, else `False`. -/
def flag (l : Option (List Str)) : NArg := if l.isSome then .yes else .no

/-- An object: points with the same number of values, at least one point and one feature, and as many
names as points and features. -/
structure Shape (pn fn : Option (List Str)) (vals : List (List (Cell F))) (m : Nat) : Prop where
  rows : vals ≠ []
  cols : 0 < m
  rect : ∀ r ∈ vals, r.length = m
  pnames : ∀ ps, pn = some ps → ps.length = vals.length
  fnames : ∀ ns, fn = some ns → ns.length = m ∧ ∀ n ∈ ns, n ≠ []

/-- The values of one feature. -/
def featureVals (vals : List (List (Cell F))) (j : Nat) : List (Cell F) := vals.map (fun r => r.getD j .missing)

/-! ### Saving -/

theorem nameTexts_some (l : List Str) : nameTexts (l.map some) = .ok l := by
  induction l with
  | nil => rfl
  | cons a l ih => simp only [List.map_cons, nameTexts, ih, bind, Except.bind, pure, Except.pure]

theorem namedLines_some : ∀ (ps : List Str) (rows : List (List Str)), ps.length = rows.length →
    namedLines (ps.map some) rows = .ok ((List.zipWith (· :: ·) ps rows).flatMap csvLine)
  | [], [], _ => rfl
  | [], _ :: _, h => by simp at h
  | _ :: _, [], h => by simp at h
  | p :: ps, r :: rs, h => by
    have ih := namedLines_some ps rs (by simpa using h)
    simp only [List.map_cons, namedLines, ih, bind, Except.bind, pure, Except.pure, List.zipWith_cons_cons,
      List.flatMap_cons]

theorem namesSeen_some {l : List Str} (h : l ≠ []) : namesSeen true (some (l.map some)) = true := by
  obtain ⟨a, l, rfl⟩ := List.exists_cons_of_ne_nil h
  simp [namesSeen]

theorem save_eq {pn fn : Option (List Str)} {texts : List (List Str)} (h1 : texts ≠ [])
    (h2 : texts.head? ≠ some []) (hp : ∀ ps, pn = some ps → ps.length = texts.length)
    (hf : ∀ ns, fn = some ns → ns ≠ []) :
    saveCsv true (asNames pn) (asNames fn) texts = .ok ((fileRows pn fn texts).flatMap csvLine) := by
  have hpn : csvCommaFormat "pointNames".toList = "pointNames".toList := by decide
  have hseenp : namesSeen true (asNames pn) = pn.isSome := by
    cases pn with
    | none => rfl
    | some ps =>
      have : ps ≠ [] := by
        intro e
        have := hp ps rfl
        rw [e] at this
        exact h1 (List.length_eq_zero_iff.1 this.symm)
      exact namesSeen_some this
  have hseenf : namesSeen true (asNames fn) = fn.isSome := by
    cases fn with
    | none => rfl
    | some ns => exact namesSeen_some (hf ns rfl)
  unfold saveCsv
  rw [if_neg (by rintro (h | h); exacts [h1 h, h2 h])]
  dsimp only
  rw [hseenp, hseenf]
  have hhead : saveHeader fn.isSome pn.isSome ((asNames fn).getD [])
      = .ok ((headerRows pn fn).flatMap csvLine) := by
    cases fn with
    | none => rfl
    | some ns =>
      simp only [saveHeader, Option.isSome_some, if_true, asNames, Option.map_some, Option.getD_some, headerLine,
        nameTexts_some, bind, Except.bind, pure, Except.pure]
      congr 1
      cases pn with
      | none => simp [csvLine, headerRows]
      | some ps =>
        simp only [headerRows, csvLine, Option.isSome_some, if_true, List.flatMap_cons, List.flatMap_nil,
          List.map_cons, hpn, List.append_nil]
  have hbody : saveBody pn.isSome ((asNames pn).getD []) texts
      = .ok ((bodyRows texts pn).flatMap csvLine) := by
    cases pn with
    | none => rfl
    | some ps =>
      simp only [saveBody, Option.isSome_some, if_true, asNames, Option.map_some, Option.getD_some]
      exact namedLines_some ps texts (hp ps rfl)
  simp only [hhead, hbody, bind, Except.bind, pure, Except.pure, fileRows, List.flatMap_append]

/-! ### The loop -/

theorem loop_named (P : NumParse F) (fn : Option (List (Option Str))) (m : Nat) :
    ∀ (ps : List Str) (ts : List (List Str)) (fl : Option Nat) (ex : List Str) (data : List (List Str))
      (cols : Option (List Col)) (i : Nat), ps.length = ts.length → (∀ t ∈ ts, t.length = m) →
    (fl = none ∨ fl = some m) →
    Loop.rows P ⟨.yes, false, [], fn, fl, ex, data, cols⟩ i (List.zipWith (· :: ·) ps ts)
      = .ok ⟨.yes, false, [], fn, (if ts = [] then fl else some m), ex ++ ps, data ++ ts,
          ts.foldl (fun c r => some (trackCols P c r)) cols⟩
  | [], [], fl, ex, data, cols, i, _, _, _ => by simp [Loop.rows]
  | [], _ :: _, _, _, _, _, _, h, _, _ => by simp at h
  | _ :: _, [], _, _, _, _, _, h, _, _ => by simp at h
  | p :: ps, t :: ts, fl, ex, data, cols, i, h, hm, hfl => by
    have ht := hm t (by simp)
    have hstep : Loop.row P ⟨.yes, false, [], fn, fl, ex, data, cols⟩ i (p :: t)
        = .ok ⟨.yes, false, [], fn, some m, ex ++ [p], data ++ [t], some (trackCols P cols t)⟩ := by
      have hc : ¬ (fl.isSome = true ∧ fl ≠ some t.length) := by
        rintro ⟨h1, h2⟩
        rcases hfl with rfl | rfl
        · simp at h1
        · exact h2 (by rw [ht])
      simp only [Loop.row, Loop.outOfNames, Loop.keep, Loop.takeName, Loop.named, decide_true, Bool.true_or,
        if_true, List.tail_cons, List.headD_cons, Bool.false_eq_true, if_false]
      rw [if_neg hc, ht]
    rw [List.zipWith_cons_cons, Loop.rows]
    simp only [hstep, bind, Except.bind]
    rw [loop_named P fn m ps ts (some m) _ _ _ _ (by simpa using h)
      (fun x hx => hm x (List.mem_cons_of_mem _ hx)) (Or.inr rfl)]
    simp

theorem loop_unnamed (P : NumParse F) (fn : Option (List (Option Str))) (m : Nat) :
    ∀ (ts : List (List Str)) (fl : Option Nat) (ex : List Str) (data : List (List Str))
      (cols : Option (List Col)) (i : Nat), (∀ t ∈ ts, t.length = m) →
    (fl = none ∨ fl = some m) →
    Loop.rows P ⟨.no, false, [], fn, fl, ex, data, cols⟩ i ts
      = .ok ⟨.no, false, [], fn, (if ts = [] then fl else some m), ex, data ++ ts,
          ts.foldl (fun c r => some (trackCols P c r)) cols⟩
  | [], fl, ex, data, cols, i, _, _ => by simp [Loop.rows]
  | t :: ts, fl, ex, data, cols, i, hm, hfl => by
    have ht := hm t (by simp)
    have hstep : Loop.row P ⟨.no, false, [], fn, fl, ex, data, cols⟩ i t
        = .ok ⟨.no, false, [], fn, some m, ex, data ++ [t], some (trackCols P cols t)⟩ := by
      have hc : ¬ (fl.isSome = true ∧ fl ≠ some t.length) := by
        rintro ⟨h1, h2⟩
        rcases hfl with rfl | rfl
        · simp at h1
        · exact h2 (by rw [ht])
      have hn : decide (NArg.no = NArg.yes) = false := rfl
      simp only [Loop.row, Loop.outOfNames, Loop.keep, Loop.takeName, Loop.named, hn, Bool.or_self,
        Bool.false_eq_true, if_false]
      rw [if_neg hc, ht]
    rw [Loop.rows]
    simp only [hstep, bind, Except.bind]
    rw [loop_unnamed P fn m ts (some m) _ _ _ _
      (fun x hx => hm x (List.mem_cons_of_mem _ hx)) (Or.inr rfl)]
    simp

/-! ### The columns -/

theorem nextCols_length (P : NumParse F) : ∀ (cs : List Col) (r : List Str),
    (nextCols P cs r).length = cs.length
  | [], _ => rfl
  | _ :: _, [] => rfl
  | c :: cs, v :: vs => by simp [nextCols, nextCols_length P cs vs]

theorem nextCols_get (P : NumParse F) : ∀ (cs : List Col) (r : List Str) (j : Nat) (c : Col) (v : Str),
    cs[j]? = some c → r[j]? = some v → (nextCols P cs r)[j]? = some (c.next P v)
  | [], _, _, _, _, h, _ => by simp at h
  | _ :: _, [], _, _, _, _, h => by simp at h
  | c :: cs, v :: vs, 0, _, _, h1, h2 => by
    simp only [List.getElem?_cons_zero, Option.some.injEq] at h1 h2
    subst h1 h2
    rfl
  | c :: cs, v :: vs, j + 1, _, _, h1, h2 => by
    simp only [List.getElem?_cons_succ] at h1 h2
    simp only [nextCols, List.getElem?_cons_succ]
    exact nextCols_get P cs vs j _ _ h1 h2

theorem fold_cols (P : NumParse F) : ∀ (ts : List (List Str)) (cs : List Col) (m j : Nat) (c : Col),
    (∀ t ∈ ts, t.length = m) → j < m → cs[j]? = some c →
    (ts.foldl (fun c r => some (trackCols P c r)) (some cs))
        = some (ts.foldl (nextCols P) cs) ∧
    (ts.foldl (nextCols P) cs).length = cs.length ∧
    (ts.foldl (nextCols P) cs)[j]? = some ((ts.map (fun t => t.getD j [])).foldl (Col.next P) c)
  | [], cs, m, j, c, _, _, h => ⟨rfl, rfl, h⟩
  | t :: ts, cs, m, j, c, hm, hj, h => by
    have ht := hm t (by simp)
    have hv : t[j]? = some (t.getD j []) := by
      rw [List.getD_eq_getElem?_getD, List.getElem?_eq_getElem (by omega)]; rfl
    have h1 := nextCols_get P cs t j c _ h hv
    obtain ⟨i1, i2, i3⟩ := fold_cols P ts (nextCols P cs t) m j _
      (fun x hx => hm x (List.mem_cons_of_mem _ hx)) hj h1
    refine ⟨i1, ?_, i3⟩
    rw [List.foldl_cons, i2, nextCols_length]

/-! ### Conversion -/

theorem convertRow_same (P : NumParse F) (showFloat : F → Str) (ofInt : Int → F) :
    ∀ (cols : List Col) (vs : List (Cell F)),
    List.Forall₂ (fun c v => ∃ y, convertCell P c (cellText showFloat v) = .ok y ∧ SameCell ofInt v y) cols vs →
    ∃ out, convertRow P cols (vs.map (cellText showFloat)) = .ok out ∧ List.Forall₂ (SameCell ofInt) vs out
  | [], [], _ => ⟨[], rfl, .nil⟩
  | c :: cs, v :: vs, h => by
    cases h with
    | cons h1 h2 =>
      obtain ⟨y, hy, hs⟩ := h1
      obtain ⟨out, ho, hf⟩ := convertRow_same P showFloat ofInt cs vs h2
      refine ⟨y :: out, ?_, .cons hs hf⟩
      simp only [List.map_cons, convertRow, hy, ho, bind, Except.bind, pure, Except.pure]

theorem convertRows_same (P : NumParse F) (showFloat : F → Str) (ofInt : Int → F) (cols : List Col) :
    ∀ (rows : List (List (Cell F))),
    (∀ r ∈ rows, List.Forall₂ (fun c v => ∃ y, convertCell P c (cellText showFloat v) = .ok y ∧
      SameCell ofInt v y) cols r) →
    ∃ out, convertRows P cols (rows.map (List.map (cellText showFloat))) = .ok out ∧
      List.Forall₂ (List.Forall₂ (SameCell ofInt)) rows out
  | [], _ => ⟨[], rfl, .nil⟩
  | r :: rs, h => by
    obtain ⟨x, hx, h1⟩ := convertRow_same P showFloat ofInt cols r (h r (by simp))
    obtain ⟨y, hy, h2⟩ := convertRows_same P showFloat ofInt cols rs (fun z hz => h z (List.mem_cons_of_mem _ hz))
    refine ⟨x :: y, ?_, .cons h1 h2⟩
    simp only [List.map_cons, convertRows, hx, hy, bind, Except.bind, pure, Except.pure]

/-! ### The names -/

theorem dataRows_false (P : NumParse F) : ∀ (a b : List Str), (dataRows P false a b).2.2 = false
  | [], _ => by cases ‹List Str› <;> rfl
  | _ :: _, [] => rfl
  | a :: as, b :: bs => by
    unfold dataRows
    dsimp only
    split
    · exact dataRows_false P as bs
    · simpa using dataRows_false P as bs

theorem iFoS_type {P : NumParse F} {s : Str} (h : s ≠ []) : (intFloatOrString P s).type.isSome = true := by
  unfold intFloatOrString
  rw [if_neg h]
  cases P.asInt s with
  | some n => rfl
  | none => cases P.asFloat s <;> rfl

/-- With the flags of the names, the file is not searched for names. -/
theorem check_flags (P : NumParse F) (a b : Option (List Str)) (records : List (List Str))
    (hf : b.isSome → ∀ r, records.head? = some r → ∃ c t, r = c :: t ∧ c ≠ []) (hne : [] ∉ records) :
    checkNames P (flag a) (flag b) records = (flag a, flag b, false) := by
  have hfilter : records.filter (· ≠ []) = records := by
    rw [List.filter_eq_self]
    intro r hr
    have : r ≠ [] := fun e => hne (e ▸ hr)
    simpa using this
  unfold checkNames
  rw [hfilter]
  have hauto : ∀ x y : List (Cell F), autoDetect (flag a) (flag b) x y = (flag a, flag b) := by
    intro x y
    unfold autoDetect flag
    cases a <;> cases b <;> simp [NArg.fail]
  cases records with
  | nil => simp only [hauto]
  | cons r rs =>
    cases rs with
    | nil => simp only [hauto]
    | cons r2 rs =>
      simp only [hauto]
      cases b with
      | none => simp [flag]
      | some ns =>
        obtain ⟨c, t, rfl, hc⟩ := hf rfl r rfl
        have : (dataRows P true (c :: t) r2).2.2 = false := by
          cases r2 with
          | nil => rfl
          | cons d u =>
            unfold dataRows
            dsimp only
            rw [if_pos (Or.inl (iFoS_type hc))]
            exact dataRows_false P t u
        rw [this]
        rfl

/-- Loading in terms of the records of the file. -/
theorem load_records (P : NumParse F) {p f : NArg} {e : Bool} {text : Str} {lines : List Str}
    {records : List (List Str)}
    (h1 : advancePastComments (splitLines (universal false text)) = .ok lines)
    (h2 : readRows lines Reader.init = records) (h3 : readRows (dropBlank lines) Reader.init = records) :
    loadCsv P p f e text = (do
      let start ← startLoop (checkNames P p f records).1 (checkNames P p f records).2.1
        (checkNames P p f records).2.2 records
      let s ← Loop.rows P start.1 0 start.2
      s.finish P e (checkNames P p f records).2.1) := by
  unfold loadCsv
  simp only [h1, bind, Except.bind, h2, h3]

theorem fileRows_ne {pn fn : Option (List Str)} {texts : List (List Str)} (h : texts ≠ [])
    (hp : ∀ ps, pn = some ps → ps.length = texts.length) : fileRows pn fn texts ≠ [] := by
  unfold fileRows
  intro e
  obtain ⟨_, e2⟩ := List.append_eq_nil_iff.1 e
  cases pn with
  | none => exact h e2
  | some ps =>
    have hl := hp ps rfl
    have := congrArg List.length e2
    simp only [bodyRows, List.length_zipWith, List.length_nil] at this
    apply h
    rw [← List.length_eq_zero_iff]
    omega

/-- The column states at the end, for good features. -/
theorem final_cols {P : NumParse F} {showFloat : F → Str} {ofInt : Int → F} (L : Lawful P showFloat ofInt)
    {vals : List (List (Cell F))} {m : Nat} (h0 : vals ≠ []) (hr : ∀ r ∈ vals, r.length = m)
    (hg : ∀ j < m, GoodColumn P (featureVals vals j)) (e : Bool) :
    ∃ cs : List Col, cs.length = m ∧ (∀ j < m, cs[j]? ≠ some .empty) ∧
      (0 < m → (vals.map (List.map (cellText showFloat))).foldl (fun c r => some (trackCols P c r)) none
        = some cs) ∧
      ∀ r ∈ vals, List.Forall₂ (fun c v => ∃ y, convertCell P c (cellText showFloat v) = .ok y ∧
        SameCell ofInt v y) (cs.map (Col.final e)) r := by
  obtain ⟨r0, rs, rfl⟩ := List.exists_cons_of_ne_nil h0
  have hr0 := hr r0 (by simp)
  refine ⟨((rs.map (List.map (cellText showFloat))).foldl (nextCols P)
    ((r0.map (cellText showFloat)).map (Col.first P))), ?_, ?_, ?_, ?_⟩
  · have : ∀ (ts : List (List Str)) (cs : List Col), (ts.foldl (nextCols P) cs).length = cs.length := by
      intro ts
      induction ts with
      | nil => intro cs; rfl
      | cons t ts ih => intro cs; rw [List.foldl_cons, ih, nextCols_length]
    rw [this]; simpa using hr0
  all_goals
    have hlen : ∀ t ∈ rs.map (List.map (cellText showFloat)), t.length = m := by
      intro t ht
      obtain ⟨r, hrm, rfl⟩ := List.mem_map.1 ht
      simpa using hr r (List.mem_cons_of_mem _ hrm)
    have hcol : ∀ j (hj : j < m), ((r0.map (cellText showFloat)).map (Col.first P))[j]?
        = some (Col.first P (cellText showFloat (r0.getD j .missing))) := by
      intro j hj
      rw [List.getElem?_map, List.getElem?_map, List.getElem?_eq_getElem (by omega),
        List.getD_eq_getElem?_getD, List.getElem?_eq_getElem (by omega)]
      rfl
    have hcs : ∀ j (hj : j < m), ((rs.map (List.map (cellText showFloat))).foldl (nextCols P)
        ((r0.map (cellText showFloat)).map (Col.first P)))[j]?
        = some (((featureVals rs j).map (cellText showFloat)).foldl (Col.next P)
            (Col.first P (cellText showFloat (r0.getD j .missing)))) := by
      intro j hj
      rw [(fold_cols P _ _ m j _ hlen hj (hcol j hj)).2.2]
      congr 2
      unfold featureVals
      rw [List.map_map, List.map_map]
      apply List.map_congr_left
      intro r hrm
      have hl := hr r (List.mem_cons_of_mem _ hrm)
      simp only [Function.comp, List.getD_eq_getElem?_getD, List.getElem?_map]
      rw [List.getElem?_eq_getElem (by omega)]
      rfl
    have hgood := fun j (hj : j < m) => good_column L (c := r0.getD j .missing) (l := featureVals rs j)
      (by simpa [featureVals] using hg j hj) e
  · intro j hj
    rw [hcs j hj]
    intro he
    exact (hgood j hj).1 (Option.some.inj he)
  · intro hm
    rw [List.map_cons, List.foldl_cons]
    exact (fold_cols P _ _ m 0 _ hlen hm (hcol 0 hm)).1
  · intro r hrm
    have hl := hr r hrm
    rw [List.forall₂_iff_get]
    refine ⟨?_, ?_⟩
    · rw [List.length_map, hl]
      have : ∀ (ts : List (List Str)) (cs : List Col), (ts.foldl (nextCols P) cs).length = cs.length := by
        intro ts
        induction ts with
        | nil => intro cs; rfl
        | cons t ts ih => intro cs; rw [List.foldl_cons, ih, nextCols_length]
      rw [this]; simpa using hr0
    · intro j h1 h2
      have hj : j < m := by omega
      have hc := hcs j hj
      have hb : j < ((rs.map (List.map (cellText showFloat))).foldl (nextCols P)
        ((r0.map (cellText showFloat)).map (Col.first P))).length := by simpa using h1
      rw [List.getElem?_eq_getElem hb] at hc
      have hc := Option.some.inj hc
      simp only [List.get_eq_getElem, List.getElem_map]
      rw [hc]
      apply (hgood j hj).2
      have hx : r[j]? = some r[j] := List.getElem?_eq_getElem h2
      rcases List.mem_cons.1 hrm with rfl | hrm'
      · rw [List.getD_eq_getElem?_getD, hx]; simp
      · apply List.mem_cons_of_mem
        unfold featureVals
        rw [List.mem_map]
        exact ⟨r, hrm', by rw [List.getD_eq_getElem?_getD, hx]; rfl⟩

/-- C37. An object whose features are numbers, truth values or strings (not all of which look like
numbers or truth values), with texts and names safe for the writer (see `SafeCell`), is read back: the
same values and the same names, when the reader is told which names the file contains. -/
theorem C37_roundtrip_partial {P : NumParse F} {showFloat : F → Str} {ofInt : Int → F}
    (L : Lawful P showFloat ofInt) {pn fn : Option (List Str)} {vals : List (List (Cell F))} {m : Nat}
    (hsh : Shape pn fn vals m) (hg : ∀ j < m, GoodColumn P (featureVals vals j))
    (hsafe : ∀ r ∈ fileRows pn fn (vals.map (List.map (cellText showFloat))), SafeRow r)
    (hcom : NotComment (fileRows pn fn (vals.map (List.map (cellText showFloat))))) (e : Bool) :
    ∃ text out, saveCsv true (asNames pn) (asNames fn) (vals.map (List.map (cellText showFloat))) = .ok text ∧
      loadCsv P (flag pn) (flag fn) e text = .ok out ∧
      out.pnames = asNames pn ∧ out.fnames = asNames fn ∧
      List.Forall₂ (List.Forall₂ (SameCell ofInt)) vals out.data := by
  have ht0 : vals.map (List.map (cellText showFloat)) ≠ [] := by simpa using hsh.rows
  have hpl : ∀ ps, pn = some ps → ps.length = (vals.map (List.map (cellText showFloat))).length := by
    intro ps h; rw [List.length_map]; exact hsh.pnames ps h
  have hsave := save_eq (pn := pn) (fn := fn) ht0 (by
    obtain ⟨r, rs, hv⟩ := List.exists_cons_of_ne_nil hsh.rows
    rw [hv]
    simp only [List.map_cons, List.head?_cons, ne_eq, Option.some.injEq]
    intro h0
    have := hsh.rect r (by simp [hv])
    rw [List.map_eq_nil_iff] at h0
    rw [h0] at this
    have := hsh.cols
    simp at *
    omega) hpl (fun ns h => by
      intro h0
      have := (hsh.fnames ns h).1
      have := hsh.cols
      simp [h0] at *
      omega)
  obtain ⟨lines, hl1, hl2, hl3⟩ := read_table (fileRows_ne ht0 hpl) hsafe hcom
  have hchk := check_flags P pn fn (fileRows pn fn (vals.map (List.map (cellText showFloat)))) (by
    intro hf r hr
    cases fn with
    | none => simp at hf
    | some ns =>
      have hns := hsh.fnames ns rfl
      simp only [fileRows, headerRows, List.singleton_append, List.head?_cons, Option.some.injEq] at hr
      subst hr
      cases hp : pn with
      | some ps =>
        simp only [Option.isSome_some, if_true]
        exact ⟨_, ns, rfl, by decide⟩
      | none =>
        simp only [Option.isSome_none, Bool.false_eq_true, if_false]
        have : ns ≠ [] := by
          intro h0
          have := hsh.cols
          simp [h0] at hns
          omega
        obtain ⟨c, t, rfl⟩ := List.exists_cons_of_ne_nil this
        exact ⟨c, t, rfl, hns.2 c (by simp)⟩) (by
    intro hm
    exact (hsafe [] hm).nonempty rfl)
  obtain ⟨cs, hcs1, hcs2, hcs3, hcs4⟩ := final_cols L hsh.rows hsh.rect hg e
  obtain ⟨out, ho1, ho2⟩ := convertRows_same P showFloat ofInt (cs.map (Col.final e)) vals hcs4
  refine ⟨_, ⟨out, asNames pn, asNames fn⟩, hsave, ?_, rfl, rfl, ho2⟩
  rw [load_records P hl1 hl2 hl3, hchk]
  have hlast : ∀ (f : NArg) (fnames : Option (List (Option Str))), lastRemovable e f fnames m cs = false := by
    intro f fnames
    unfold lastRemovable
    have : decide (0 < m ∧ cs[m - 1]? = some Col.empty) = false := by
      rw [decide_eq_false_iff_not]
      rintro ⟨h1, h2⟩
      exact hcs2 (m - 1) (by omega) h2
    rw [this]
    simp
  have htl : ∀ t ∈ vals.map (List.map (cellText showFloat)), t.length = m := by
    intro t ht
    obtain ⟨r, hr, rfl⟩ := List.mem_map.1 ht
    simpa using hsh.rect r hr
  have hcsn := hcs3 hsh.cols
  have hmapl : (vals.map (List.map (cellText showFloat))).length = vals.length := by simp
  -- the loop and what comes after it, for each combination of names
  have hfin : ∀ (fl : Option Nat) (f : NArg), (fl = none ∨ fl = some m) →
      ∀ rows, rows = bodyRows (vals.map (List.map (cellText showFloat))) pn →
      (Loop.rows P ⟨flag pn, false, [], asNames fn, fl, [], [], none⟩ 0 rows >>= fun s =>
        s.finish P e f) = .ok ⟨out, asNames pn, asNames fn⟩ := by
    intro fl f hfl rows hrows
    cases hpn : pn with
    | some ps =>
      rw [hpn] at hrows hpl
      subst hrows
      rw [show flag (some ps) = NArg.yes from rfl, bodyRows,
        loop_named P (asNames fn) m ps _ fl [] [] none 0 (hpl ps rfl) htl hfl]
      simp only [bind, Except.bind, Loop.finish, hcsn, if_neg ht0, Option.getD_some, hlast, List.nil_append,
        Bool.false_eq_true, if_false, ho1, pure, Except.pure, finalPointNames]
      rfl
    | none =>
      rw [hpn] at hrows
      subst hrows
      rw [show flag none = NArg.no from rfl, bodyRows,
        loop_unnamed P (asNames fn) m _ fl [] [] none 0 htl hfl]
      simp only [bind, Except.bind, Loop.finish, hcsn, if_neg ht0, Option.getD_some, hlast, List.nil_append,
        Bool.false_eq_true, if_false, ho1, pure, Except.pure, finalPointNames]
      rfl
  dsimp only
  cases hfn : fn with
  | none =>
    rw [hfn] at hfin
    have := hfin none (flag none) (Or.inl rfl) _ rfl
    simpa only [flag, Option.isSome_none, Bool.false_eq_true, if_false, startLoop, fileRows, headerRows, List.nil_append,
      bind, Except.bind, asNames, Option.map_none] using this
  | some ns =>
    obtain ⟨hn1, hn2⟩ := hsh.fnames ns hfn
    rw [hfn] at hfin
    have := hfin (some m) (flag (some ns)) (Or.inr rfl) _ rfl
    have hnames : ns.map headerName = ns.map some := by
      apply List.map_congr_left
      intro n hn
      unfold headerName
      rw [if_neg (hn2 n hn)]
    cases hpn : pn with
    | some ps =>
      rw [hpn] at this
      simpa only [flag, Option.isSome_some, if_true, startLoop, fileRows, headerRows, List.singleton_append, List.map_cons,
        List.tail_cons, hnames, true_or, List.length_map, hn1, bind, Except.bind, asNames, Option.map_some]
        using this
    | none =>
      rw [hpn] at this
      simpa only [flag, Option.isSome_some, Option.isSome_none, Bool.false_eq_true, if_false, if_true, startLoop,
        fileRows, headerRows, List.singleton_append, hnames, or_self, reduceCtorEq, List.length_map, hn1, bind, Except.bind,
        asNames, Option.map_some, Option.map_none] using this

end Nimble.Csv
