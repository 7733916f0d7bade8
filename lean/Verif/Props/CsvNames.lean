import Verif.Props.CsvLoad

/-!
# C37, C61: names in csv files; what is not read back
-/

namespace Nimble.Csv

variable {F : Type}

/-! ### Automatic detection -/

theorem dataRows_full (P : NumParse F) : ∀ (b : Bool) (first second : List Str),
    (∀ c ∈ first, c ≠ []) → first.length = second.length →
    dataRows P b first second = (first.map (intFloatOrString P), second.map (intFloatOrString P), false)
  | _, [], [], _, _ => rfl
  | _, [], _ :: _, _, h => by simp at h
  | _, _ :: _, [], _, h => by simp at h
  | b, c :: cs, d :: ds, hc, h => by
    unfold dataRows
    dsimp only
    rw [if_pos (Or.inl (iFoS_type (hc c (by simp)))),
      dataRows_full P false cs ds (fun x hx => hc x (List.mem_cons_of_mem _ hx)) (by simpa using h)]
    rfl

/-- The text of a name: not a number. -/
theorem iFoS_word {P : NumParse F} {s : Str} (h0 : s ≠ []) (h1 : P.asInt s = none) (h2 : P.asFloat s = none) :
    intFloatOrString P s = .str s := by
  unfold intFloatOrString
  rw [if_neg h0, h1, h2]

/-- A name the automatic detection takes for a name: not empty and not a number. -/
structure IsName (P : NumParse F) (s : Str) : Prop where
  ne : s ≠ []
  int : P.asInt s = none
  float : P.asFloat s = none

theorem names_str {P : NumParse F} {ns : List Str} (h : ∀ n ∈ ns, IsName P n) :
    ns.map (intFloatOrString P) = ns.map Cell.str :=
  List.map_congr_left (fun n hn => iFoS_word (h n hn).ne (h n hn).int (h n hn).float)

theorem text_str (ns : List Str) : (ns.map (Cell.str (F := F))).map Cell.text = ns := by
  rw [List.map_map]
  conv_rhs => rw [← List.map_id ns]
  rfl

theorem all_str (ns : List Str) : (ns.map (Cell.str (F := F))).all Cell.isStr = true := by
  rw [List.all_eq_true]
  intro x hx
  obtain ⟨s, _, rfl⟩ := List.mem_map.1 hx
  rfl

theorem autoDetect_yes {first second : List (Cell F)} {b : Bool} (h1 : first ≠ []) (h2 : second ≠ [])
    (hs : saysPointNames first = b) (hl : looksLikeHeader .auto first second = true) :
    autoDetect .auto .auto first second = (if b then .yes else .no, .yes) := by
  unfold autoDetect
  rw [if_neg (by simp [h1, h2])]
  dsimp only
  rw [if_pos rfl, if_pos hl, if_pos rfl, hs]
  cases b <;> rfl

theorem checkNames_full {P : NumParse F} {first second : List Str} {rest : List (List Str)}
    (h1 : first ≠ []) (hc : ∀ c ∈ first, c ≠ []) (hlen : first.length = second.length) :
    checkNames P .auto .auto (first :: second :: rest)
      = ((autoDetect .auto .auto (first.map (intFloatOrString P)) (second.map (intFloatOrString P))).1,
         (autoDetect .auto .auto (first.map (intFloatOrString P)) (second.map (intFloatOrString P))).2,
         false) := by
  have h2 : second ≠ [] := by
    rintro rfl
    exact h1 (List.length_eq_zero_iff.1 hlen)
  unfold checkNames
  rw [List.filter_cons_of_pos (by simpa using h1), List.filter_cons_of_pos (by simpa using h2)]
  dsimp only
  rw [dataRows_full P true _ _ hc hlen]
  rfl

/-- Feature names (which are no numbers, and different) above a point with at least one number are
detected. -/
theorem check_auto_none {P : NumParse F} {ns : List Str} {second : List Str}
    {rest : List (List Str)} (h0 : ns ≠ []) (hn : ∀ n ∈ ns, IsName P n) (hd : ns.Nodup)
    (hp : ns.head? ≠ some "pointNames".toList) (hlen : second.length = ns.length)
    (hnum : (second.map (intFloatOrString P)).any Cell.isNum = true) :
    checkNames P .auto .auto (ns :: second :: rest) = (.no, .yes, false) := by
  have hs0 : second ≠ [] := by
    rintro rfl
    exact h0 (List.length_eq_zero_iff.1 hlen.symm)
  rw [checkNames_full h0 (fun c hc => (hn c hc).ne) hlen.symm, names_str hn]
  have hsay : saysPointNames (ns.map (Cell.str (F := F))) = false := by
    obtain ⟨n0, nt, rfl⟩ := List.exists_cons_of_ne_nil h0
    have hne : n0 ≠ "pointNames".toList := fun e => hp (congrArg some e)
    exact decide_eq_false hne
  rw [autoDetect_yes (b := false) (mt List.map_eq_nil_iff.1 h0) (mt List.map_eq_nil_iff.1 hs0) hsay]
  · rfl
  · unfold looksLikeHeader
    rw [hsay, if_neg (fun h => Bool.noConfusion h.2), all_str, hnum, ← List.map_tail, text_str]
    have : ns.tail.Nodup := List.Nodup.sublist (List.tail_sublist ns) hd
    rw [decide_eq_true this]
    rfl

/-- The same with point names. -/
theorem check_auto_some {P : NumParse F} {ns : List Str} {p0 : Str} {second : List Str}
    {rest : List (List Str)} (hn : ∀ n ∈ ns, IsName P n) (hd : ns.Nodup)
    (hpn : IsName P "pointNames".toList) (hlen : second.length = ns.length)
    (hnum : (second.map (intFloatOrString P)).any Cell.isNum = true) :
    checkNames P .auto .auto (("pointNames".toList :: ns) :: (p0 :: second) :: rest) = (.yes, .yes, false) := by
  have hall : ∀ n ∈ "pointNames".toList :: ns, IsName P n := by
    intro n hm
    rcases List.mem_cons.1 hm with rfl | hm
    · exact hpn
    · exact hn n hm
  rw [checkNames_full (List.cons_ne_nil _ _) (fun c hc => (hall c hc).ne)
    (by rw [List.length_cons, List.length_cons, hlen]), names_str hall]
  have hsay : saysPointNames (("pointNames".toList :: ns).map (Cell.str (F := F))) = true :=
    rfl
  rw [autoDetect_yes (b := true) (mt List.map_eq_nil_iff.1 (List.cons_ne_nil _ _))
    (mt List.map_eq_nil_iff.1 (List.cons_ne_nil _ _)) hsay]
  · rfl
  · unfold looksLikeHeader
    rw [if_pos ⟨Or.inr rfl, hsay⟩, List.map_cons, List.tail_cons, all_str, text_str, List.map_cons,
      List.tail_cons, hnum, decide_eq_true hd]
    rfl

/-- C37. With automatic names: if there are feature names, none of them a number, all different, and the
first point has a number among its values, a file saved with its names is read back with its names. -/
theorem C37_automatic_partial {P : NumParse F} {showFloat : F → Str} {ofInt : Int → F}
    (L : Lawful P showFloat ofInt) {pn : Option (List Str)} {ns : List Str} {vals : List (List (Cell F))}
    {m : Nat} (hsh : Shape pn (some ns) vals m) (hg : ∀ j < m, GoodColumn P (featureVals vals j))
    (hsafe : ∀ r ∈ fileRows pn (some ns) (vals.map (List.map (cellText showFloat))), SafeRow r)
    (hcom : NotComment (fileRows pn (some ns) (vals.map (List.map (cellText showFloat)))))
    (hn : ∀ n ∈ ns, IsName P n) (hd : ns.Nodup) (hpn : IsName P "pointNames".toList)
    (hp : pn = none → ns.head? ≠ some "pointNames".toList)
    (hnum : ∀ r, vals.head? = some r → ∃ c ∈ r, (∃ n, c = .int n) ∨ ∃ f, c = .float f) (e : Bool) :
    ∃ text out, saveCsv true (asNames pn) (asNames (some ns)) (vals.map (List.map (cellText showFloat)))
        = .ok text ∧
      loadCsv P .auto .auto e text = .ok out ∧
      out.pnames = asNames pn ∧ out.fnames = asNames (some ns) ∧
      List.Forall₂ (List.Forall₂ (SameCell ofInt)) vals out.data := by
  obtain ⟨text, out, h1, h2, h3⟩ := C37_roundtrip_partial L hsh hg hsafe hcom e
  refine ⟨text, out, h1, ?_, h3⟩
  have ht0 : vals.map (List.map (cellText showFloat)) ≠ [] := by simpa using hsh.rows
  have hpl : ∀ ps, pn = some ps → ps.length = (vals.map (List.map (cellText showFloat))).length := by
    intro ps h; rw [List.length_map]; exact hsh.pnames ps h
  obtain ⟨hn1, hn2⟩ := hsh.fnames ns rfl
  have hns : ns ≠ [] := by
    intro h0
    have := hsh.cols
    rw [h0] at hn1
    simp at hn1
    omega
  have hsave := save_eq (pn := pn) (fn := some ns) ht0 (by
    obtain ⟨r, rs, hv⟩ := List.exists_cons_of_ne_nil hsh.rows
    rw [hv]
    simp only [List.map_cons, List.head?_cons, ne_eq, Option.some.injEq]
    intro h0
    have := hsh.rect r (by simp [hv])
    rw [List.map_eq_nil_iff] at h0
    rw [h0] at this
    have := hsh.cols
    simp at *
    omega) hpl (fun ns' h => by obtain rfl := Option.some.inj h; exact hns)
  rw [hsave] at h1
  obtain rfl := Except.ok.inj h1
  obtain ⟨lines, hl1, hl2, hl3⟩ := read_table (fileRows_ne (fn := some ns) ht0 hpl) hsafe hcom
  rw [load_records P hl1 hl2 hl3] at h2 ⊢
  obtain ⟨r0, rs, hv⟩ := List.exists_cons_of_ne_nil hsh.rows
  have hr0 := hsh.rect r0 (by simp [hv])
  have hnum0 : ((r0.map (cellText showFloat)).map (intFloatOrString P)).any Cell.isNum = true := by
    obtain ⟨c, hc, hcn⟩ := hnum r0 (by simp [hv])
    rw [List.any_eq_true]
    refine ⟨intFloatOrString P (cellText showFloat c), List.mem_map.2 ⟨_, List.mem_map.2 ⟨c, hc, rfl⟩, rfl⟩, ?_⟩
    rcases hcn with ⟨n, rfl⟩ | ⟨f, rfl⟩
    · show (intFloatOrString P (intText n)).isNum = true
      unfold intFloatOrString
      rw [if_neg (intText_ne n), L.int_int]
      rfl
    · show (intFloatOrString P (showFloat f)).isNum = true
      unfold intFloatOrString
      rw [if_neg (L.float_ne f), L.int_float, L.float_float]
      rfl
  have hauto : checkNames P .auto .auto (fileRows pn (some ns) (vals.map (List.map (cellText showFloat))))
      = (flag pn, .yes, false) := by
    cases hpc : pn with
    | none =>
      have := check_auto_none (P := P) (ns := ns) (second := r0.map (cellText showFloat))
        (rest := rs.map (List.map (cellText showFloat))) hns hn hd (hp hpc)
        (by rw [List.length_map]; omega) hnum0
      rw [hv]
      exact this
    | some ps =>
      have hps := hsh.pnames ps hpc
      have : ps ≠ [] := by
        intro h0
        rw [h0, hv] at hps
        simp at hps
      obtain ⟨p0, pt, rfl⟩ := List.exists_cons_of_ne_nil this
      have := check_auto_some (P := P) (ns := ns) (p0 := p0)
        (second := r0.map (cellText showFloat))
        (rest := List.zipWith (· :: ·) pt (rs.map (List.map (cellText showFloat)))) hn hd hpn
        (by rw [List.length_map]; omega) hnum0
      rw [hv]
      exact this
  have hflags : checkNames P (flag pn) (flag (some ns))
      (fileRows pn (some ns) (vals.map (List.map (cellText showFloat)))) = (flag pn, .yes, false) := by
    have := check_flags P pn (some ns) (fileRows pn (some ns) (vals.map (List.map (cellText showFloat)))) (by
      intro _ r hr
      simp only [fileRows, headerRows, List.singleton_append, List.head?_cons, Option.some.injEq] at hr
      subst hr
      cases pn with
      | some ps => exact ⟨_, ns, rfl, by decide⟩
      | none =>
        obtain ⟨c, t, rfl⟩ := List.exists_cons_of_ne_nil hns
        exact ⟨c, t, rfl, hn2 c (by simp)⟩) (fun hm => (hsafe [] hm).nonempty rfl)
    exact this
  rw [hflags] at h2
  rw [hauto]
  exact h2

/-! ### Names given by the user -/

theorem autoDetect_given {p : NArg} {l : List (Option Str)} {x y : List (Cell F)} (hx : x ≠ []) (hy : y ≠ []) :
    (autoDetect p (.given l) x y).2 = .given l ∧
    (∀ ps, p = .given ps → (autoDetect p (.given l) x y).1 = .given ps) := by
  unfold autoDetect
  rw [if_neg (by simp [hx, hy])]
  refine ⟨by simp, ?_⟩
  rintro ps rfl
  simp

/-- Without names to be tracked, the feature names and the kind of point names never change. -/
theorem keep_fixed {P : NumParse F} {s t : Loop} {i : Nat} {row : List Str} (h : s.row P i row = .ok t)
    (ht : s.track = false) : t.p = s.p ∧ t.track = false ∧ t.fnames = s.fnames ∧
      t.data.length = s.data.length + 1 := by
  unfold Loop.row at h
  split at h
  · cases h
  · unfold Loop.keep at h
    have : (s.takeName row).1 = s := by
      unfold Loop.takeName
      rw [ht]
      split <;> simp
    dsimp only at h
    rw [this] at h
    split at h
    · cases h
    · obtain rfl := Except.ok.inj h
      exact ⟨rfl, ht, rfl, by simp⟩

theorem rows_fixed {P : NumParse F} : ∀ (rows : List (List Str)) (s t : Loop) (i : Nat),
    Loop.rows P s i rows = .ok t → s.track = false →
    t.p = s.p ∧ t.track = false ∧ t.fnames = s.fnames ∧ t.data.length = s.data.length + rows.length
  | [], s, t, i, h, ht => by
    obtain rfl := Except.ok.inj h
    exact ⟨rfl, ht, rfl, rfl⟩
  | r :: rs, s, t, i, h, ht => by
    unfold Loop.rows at h
    cases hr : s.row P i r with
    | error e => simp only [hr, bind, Except.bind] at h; cases h
    | ok s1 =>
      simp only [hr, bind, Except.bind] at h
      obtain ⟨a1, a2, a3, a4⟩ := keep_fixed hr ht
      obtain ⟨b1, b2, b3, b4⟩ := rows_fixed rs s1 t (i + 1) h a2
      exact ⟨b1.trans a1, b2, b3.trans a3, by rw [b4, a4, List.length_cons]; omega⟩

theorem finish_names {P : NumParse F} {e : Bool} {f : NArg} {s : Loop} {out : Loaded F}
    (h : s.finish P e f = .ok out) (ht : s.track = false) (hf : f ≠ .yes) :
    out.fnames = s.fnames ∧ out.pnames = finalPointNames s.p s.extracted s.data.length := by
  unfold Loop.finish at h
  simp only [ht, Bool.false_eq_true, if_false, hf] at h
  split at h
  · cases hc : convertRows P ((List.map (Col.final e) (s.cols.getD [])).take (s.firstLen.getD 0 - 1))
      (s.data.map List.dropLast) with
    | error x => simp only [hc, bind, Except.bind] at h; cases h
    | ok d =>
      simp only [hc, bind, Except.bind, pure, Except.pure] at h
      obtain rfl := Except.ok.inj h
      exact ⟨rfl, rfl⟩
  · cases hc : convertRows P (List.map (Col.final e) (s.cols.getD [])) s.data with
    | error x => simp only [hc, bind, Except.bind] at h; cases h
    | ok d =>
      simp only [hc, bind, Except.bind, pure, Except.pure] at h
      obtain rfl := Except.ok.inj h
      exact ⟨rfl, rfl⟩

/-- C61. Names given to the reader of a csv file with at least two rows (which do not begin with an empty
value) are the names of the result: the feature names, and the point names if there is one for each
point. -/
theorem C61_given_names_partial {P : NumParse F} {p : NArg} {l : List (Option Str)} {e : Bool} {text : Str}
    {lines : List Str} {a b : Str} {as bs : List Str} {rest : List (List Str)} {out : Loaded F}
    (h1 : advancePastComments (splitLines (universal false text)) = .ok lines)
    (h2 : readRows lines Reader.init = (a :: as) :: (b :: bs) :: rest) (ha : a ≠ [])
    (h : loadCsv P p (.given l) e text = .ok out) :
    out.fnames = some l ∧
    ∀ ps, p = .given ps → ps ≠ [] → ps.length = (readRows (dropBlank lines) Reader.init).length →
      out.pnames = some ps := by
  unfold loadCsv at h
  simp only [h1, bind, Except.bind] at h
  have hck : checkNames P p (.given l) (readRows lines Reader.init)
      = ((autoDetect p (.given l) (dataRows P true (a :: as) (b :: bs)).1
          (dataRows P true (a :: as) (b :: bs)).2.1).1, .given l, false) := by
    rw [h2]
    unfold checkNames
    rw [List.filter_cons_of_pos (by simp), List.filter_cons_of_pos (by simp)]
    have hd : ∃ x y r s, dataRows P true (a :: as) (b :: bs) = (x :: r, y :: s, false) := by
      unfold dataRows
      dsimp only
      rw [if_pos (Or.inl (iFoS_type ha))]
      exact ⟨intFloatOrString P a, intFloatOrString P b, (dataRows P false as bs).1,
        (dataRows P false as bs).2.1, by rw [dataRows_false]⟩
    obtain ⟨x, y, r, s, hd⟩ := hd
    simp only [hd]
    have := (autoDetect_given (F := F) (p := p) (l := l) (x := x :: r) (y := y :: s) (by simp) (by simp)).1
    rw [this]
    simp
  rw [hck] at h
  simp only [startLoop] at h
  cases hl : Loop.rows P ⟨(autoDetect p (.given l) (dataRows P true (a :: as) (b :: bs)).1
      (dataRows P true (a :: as) (b :: bs)).2.1).1, false, [], some l, none, [], [], none⟩ 0
      (readRows (dropBlank lines) Reader.init) with
  | error x => simp only [hl] at h; cases h
  | ok s =>
    simp only [hl] at h
    obtain ⟨b1, b2, b3, b4⟩ := rows_fixed _ _ s 0 hl rfl
    obtain ⟨c1, c2⟩ := finish_names h b2 (by simp)
    refine ⟨c1.trans b3, ?_⟩
    rintro ps rfl hps hlen
    have hp1 : (autoDetect (.given ps) (.given l) (dataRows P true (a :: as) (b :: bs)).1
          (dataRows P true (a :: as) (b :: bs)).2.1).1 = .given ps := by
      apply (autoDetect_given _ _).2 ps rfl
      · unfold dataRows
        dsimp only
        rw [if_pos (Or.inl (iFoS_type ha))]
        simp
      · unfold dataRows
        dsimp only
        rw [if_pos (Or.inl (iFoS_type ha))]
        simp
    rw [c2, b1]
    show finalPointNames _ _ _ = _
    rw [hp1, b4]
    simp [finalPointNames, hps, hlen]

/-- C61, violated. In a file with a single row the names given by the user, for points and for features,
are ignored without an error: the result is that of loading the file without names. -/
theorem C61_single_row_violated {P : NumParse F} {ps ns : List (Option Str)} {e : Bool} {text : Str}
    {lines : List Str} {r : List Str}
    (h1 : advancePastComments (splitLines (universal false text)) = .ok lines)
    (h2 : readRows lines Reader.init = [r]) :
    loadCsv P (.given ps) (.given ns) e text = loadCsv P .no .no e text := by
  have : ∀ p f : NArg, checkNames P p f [r] = (p.fail, f.fail, false) := by
    intro p f
    unfold checkNames
    by_cases hr : r = []
    · rw [List.filter_cons_of_neg (by simp [hr])]
      simp [autoDetect]
    · rw [List.filter_cons_of_pos (by simp [hr])]
      simp [autoDetect]
  unfold loadCsv
  simp only [h1, bind, Except.bind, h2, this]
  rfl

/-- C61, violated. With `featureNames=False` the point names given by the user are ignored, for every
file. -/
theorem C61_no_feature_names_violated {P : NumParse F} {ps : List (Option Str)} {e : Bool} (text : Str) :
    loadCsv P (.given ps) .no e text = loadCsv P .no .no e text := by
  have : ∀ (p : NArg) (rs : List (List Str)), checkNames P p .no rs = (p.fail, .no, false) := by
    intro p rs
    unfold checkNames
    split
    · simp [autoDetect, NArg.fail]
    · simp [autoDetect, NArg.fail]
  unfold loadCsv
  simp only [this]
  rfl

end Nimble.Csv
