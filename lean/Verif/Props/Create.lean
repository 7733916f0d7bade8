import Verif.Spec
import Verif.Model.Create
import Verif.Lemmas.Group
import Verif.Lemmas.Structural

/-!
# C53 `nimble.data` from rows, C30 mapReduce
-/

namespace Nimble
variable {V : Type}

theorem sameLengths_iff (rows : List (List V)) :
    sameLengths rows = true ↔ ∀ r ∈ rows, ∀ r' ∈ rows, r.length = r'.length := by
  unfold sameLengths
  cases rows with
  | nil => simp
  | cons x xs =>
    simp only [List.headD_cons, List.all_eq_true, beq_iff_eq]
    constructor
    · intro h r hr r' hr'; rw [h r hr, h r' hr']
    · intro h r hr; exact h r hr x (by simp)

/-- `v` as it is stored: values treated as missing become nan. -/
def CellOps.stored (C : CellOps V) (v : V) : V := if C.missing v then C.nan else v

theorem replaceMissing_eq (C : CellOps V) (rows : List (List V)) :
    replaceMissing C rows = rows.map (fun r => r.map C.stored) := rfl

/-- A list of names that an axis of length `n` accepts. -/
def goodNames (n : Nat) : Option (List (Option String)) → Prop
  | none => True
  | some l => l.length = n ∧ l.reduceOption.Nodup

theorem init_good {n : Nat} {l : Option (List (Option String))} (h : goodNames n l) :
    ∃ a, AxisSt.init n l = .ok a ∧ a.len = n ∧ a.Ok ∧ a.getNames = l.getD (List.replicate n none) := by
  cases l with
  | none => exact ⟨⟨n, none⟩, rfl, rfl, none_ok n, rfl⟩
  | some l =>
    obtain ⟨hl, hn⟩ := h
    refine ⟨_, init_some_ok hl hn, rfl, mk_ok hl hn, ?_⟩
    rfl

/-- `o` is the object holding exactly these rows and names. -/
structure HoldsRows (o : Obj V) (rows : List (List V)) (nF : Nat)
    (pn fn : Option (List (Option String))) : Prop where
  wf : o.WF
  data : o.data = rows
  fts : o.fts.len = nF
  pnames : o.pts.getNames = pn.getD (List.replicate rows.length none)
  fnames : o.fts.getNames = fn.getD (List.replicate nF none)

theorem finishData_ok (C : CellOps V) {rows : List (List V)} {n : Nat} (hn : 0 < n)
    (hne : rows ≠ []) (hr : ∀ r ∈ rows, r.length = n) {pn fn : Option (List (Option String))}
    (hp : goodNames rows.length pn) (hf : goodNames n fn) :
    ∃ o, finishData C rows pn fn = .ok o ∧ HoldsRows o rows n pn fn := by
  have hs : sameLengths rows = true :=
    (sameLengths_iff rows).2 (fun r h r' h' => by rw [hr r h, hr r' h'])
  unfold finishData
  rw [if_pos hs]
  obtain ⟨a, ha, hal, hao, han⟩ := init_good hp
  obtain ⟨b, hb, hbl, hbo, hbn⟩ := init_good hf
  match rows, hne with
  | (v :: r) :: rest, _ =>
    have h1 : r.length + 1 = n := by simpa using hr (v :: r) (by simp)
    have h2 : ((v :: r) :: rest).length = rest.length + 1 := rfl
    refine ⟨⟨(v :: r) :: rest, a, b⟩, ?_, ?_⟩
    · unfold convertRows Obj.make
      simp only [h1]
      rw [← h2, ha, hb]; rfl
    · exact ⟨⟨hal.symm, fun r' h' => by rw [hr r' h']; exact hbl.symm, hao, hbo⟩, rfl, hbl, han, hbn⟩
  | [] :: rest, _ => exact absurd (hr [] (by simp)) (by simp; omega)

/-- The names an argument provides without looking at the data. -/
def NamesArg.explicit : NamesArg → Option (List (Option String))
  | .given l => some l
  | _ => none

theorem autoDetect_off (C : CellOps V) (rows : List (List V)) {pn fn : NamesArg}
    (hpa : pn ≠ .auto ∧ pn ≠ .yes) (hfa : fn ≠ .auto ∧ fn ≠ .yes) :
    autoDetect C pn fn rows = (false, false) := by
  unfold autoDetect
  have h1 : (pn == NamesArg.yes) = false := by simpa using hpa.2
  have h2 : (fn == NamesArg.yes) = false := by simpa using hfa.2
  have h3 : (pn == NamesArg.auto) = false := by simpa using hpa.1
  have h4 : (fn == NamesArg.auto) = false := by simpa using hfa.1
  split
  · simp only [h1, h2, h3, h4]; simp
  · simp only [h1, h2]

/-- **C53 (explicit names).**  When the names are given, or declined with `False`, for both axes,
`nimble.data` holds exactly the given rows (values treated as missing stored as nan) under exactly
these names. -/
theorem C53_data_explicit (C : CellOps V) {rows : List (List V)} {n : Nat} (hn : 0 < n)
    (hne : rows ≠ []) (hr : ∀ r ∈ rows, r.length = n) {pn fn : NamesArg}
    (hpa : pn ≠ .auto ∧ pn ≠ .yes) (hfa : fn ≠ .auto ∧ fn ≠ .yes)
    (hp : goodNames rows.length pn.explicit) (hf : goodNames n fn.explicit) :
    ∃ o, nimbleData C pn fn rows = .ok o ∧
      HoldsRows o (rows.map (fun r => r.map C.stored)) n pn.explicit fn.explicit := by
  have hd := autoDetect_off C rows hpa hfa
  have e1 : chosenNames pn none = pn.explicit := by cases pn <;> simp_all [chosenNames, NamesArg.explicit]
  have e2 : chosenNames fn none = fn.explicit := by cases fn <;> simp_all [chosenNames, NamesArg.explicit]
  obtain ⟨o, ho, hh⟩ := finishData_ok C (rows := rows.map (fun r => r.map C.stored)) (n := n) hn
    (by simpa using hne) (by simpa using hr) (pn := pn.explicit) (fn := fn.explicit)
    (by simpa using hp) hf
  refine ⟨o, ?_, hh⟩
  unfold nimbleData
  simp only [hd, Bool.or_self, Bool.and_false]
  simp only [takePointNames, takeFeatureNames]
  simpa [e1, e2, replaceMissing_eq] using ho

/-- A first row that the documentation calls a header, for `pointNames='automatic'` and
`featureNames='automatic'`: only text above a row with a number (a leading `'pointNames'` cell and
what is below it are left out of the comparison). -/
def Header (C : CellOps V) (first second : List V) : Prop :=
  let k := if first.head?.bind C.asStr = some "pointNames" then 1 else 0
  (∀ v ∈ first.drop k, ∃ s, C.asStr v = some s) ∧ (first.tail.map C.asStr).Nodup ∧
    ∃ v ∈ second.drop k, C.isNum v = true

theorem looksLikeHeader_iff (C : CellOps V) (first second : List V) :
    looksLikeHeader C .auto first second = true ↔ Header C first second := by
  unfold looksLikeHeader Header saysPointNames allText noDup
  by_cases h : first.head?.bind C.asStr = some "pointNames"
  · simp [h, Option.isSome_iff_exists, and_assoc]
  · simp [h, Option.isSome_iff_exists, and_assoc]

/-- **C53 (no header).**  With automatic names, rows whose first row is not a header are stored
completely and without names. -/
theorem C53_data_automatic_no_header (C : CellOps V) {rows : List (List V)} {n : Nat} (hn : 0 < n)
    (hne : rows ≠ []) (hr : ∀ r ∈ rows, r.length = n)
    (hh : ∀ first second rest, rows = first :: second :: rest → ¬ Header C first second) :
    ∃ o, nimbleData C .auto .auto rows = .ok o ∧
      HoldsRows o (rows.map (fun r => r.map C.stored)) n none none := by
  have hd : autoDetect C .auto .auto rows = (false, false) := by
    unfold autoDetect
    split
    · next f fs s ss rest =>
      have h := hh _ _ _ rfl
      rw [← looksLikeHeader_iff] at h
      simp [h]
    · rfl
  obtain ⟨o, ho, hh⟩ := finishData_ok C (rows := rows.map (fun r => r.map C.stored)) (n := n) hn
    (by simpa using hne) (by simpa using hr) (pn := none) (fn := none) trivial trivial
  refine ⟨o, ?_, hh⟩
  unfold nimbleData
  simp only [hd, Bool.or_self, Bool.and_false]
  simp only [takePointNames, takeFeatureNames]
  simpa [chosenNames, replaceMissing_eq] using ho

theorem popColumn_ok : ∀ {rows : List (List V)}, (∀ r ∈ rows, r ≠ []) →
    popColumn rows = .ok (rows.filterMap List.head?, rows.map List.tail) := by
  intro rows h
  induction rows with
  | nil => rfl
  | cons r rs ih =>
    have h2 := ih (fun r' hr' => h r' (by simp [hr']))
    match r, h r (by simp) with
    | v :: t, _ => simp [popColumn, popHead, h2, bind, Except.bind, pure, Except.pure]

/-- **C53 (header).**  With automatic names, a header row becomes the feature names and exactly the
other rows are stored. -/
theorem C53_data_automatic_header (C : CellOps V) {first second : List V} {rest : List (List V)}
    {n : Nat} (hn : 0 < n) (hr : ∀ r ∈ first :: second :: rest, r.length = n)
    (hh : Header C first second) (hs : ∀ v s, C.asStr v = some s → C.toStr v = s)
    (hp : first.head?.bind C.asStr ≠ some "pointNames")
    (hd : (first.map C.asStr).Nodup) :
    ∃ o, nimbleData C .auto .auto (first :: second :: rest) = .ok o ∧
      HoldsRows o ((second :: rest).map (fun r => r.map C.stored)) n none
        (some (first.map C.asStr)) := by
  obtain ⟨f, fs, rfl⟩ : ∃ f fs, first = f :: fs := by
    cases first with
    | nil => have := hr [] (by simp); simp at this; omega
    | cons f fs => exact ⟨f, fs, rfl⟩
  obtain ⟨s, ss, rfl⟩ : ∃ f fs, second = f :: fs := by
    cases second with
    | nil => have := hr [] (by simp); simp at this; omega
    | cons f fs => exact ⟨f, fs, rfl⟩
  have hl := (looksLikeHeader_iff C _ _).2 hh
  have hsp : saysPointNames C (f :: fs) = false := by
    unfold saysPointNames
    exact decide_eq_false hp
  have hd' : autoDetect C .auto .auto ((f :: fs) :: (s :: ss) :: rest) = (false, true) := by
    unfold autoDetect
    simp [hl, hsp]
  unfold Header at hh
  simp only [if_neg hp, List.drop_zero] at hh
  have hall : ∀ v ∈ f :: fs, some (C.toStr v) = C.asStr v := by
    intro v hv
    obtain ⟨x, hx⟩ := hh.1 v hv
    rw [hs v x hx, hx]
  have hmap : (f :: fs).map (fun v => some (C.toStr v)) = (f :: fs).map C.asStr :=
    List.map_congr_left hall
  have hred : ((f :: fs).map C.asStr).reduceOption.Nodup := by
    apply List.Nodup.filterMap _ hd
    intro a b c ha hb
    simp at ha hb; rw [ha, hb]
  obtain ⟨o, ho, hh⟩ := finishData_ok C (rows := ((s :: ss) :: rest).map (fun r => r.map C.stored))
    (n := n) hn (by simp) (by
      intro r hrr
      obtain ⟨r0, h0, rfl⟩ := List.mem_map.1 hrr
      rw [List.length_map]
      exact hr r0 (List.mem_cons_of_mem _ h0)) (pn := none)
    (fn := some ((f :: fs).map C.asStr)) trivial ⟨by simpa using hr (f :: fs) (by simp), hred⟩
  refine ⟨o, ?_, hh⟩
  unfold nimbleData
  simp only [hd', Bool.false_or, List.isEmpty_cons, Bool.false_and]
  simp only [takePointNames, takeFeatureNames]
  simp only [← hmap] at ho
  simpa [chosenNames, replaceMissing_eq, bind, Except.bind, pure, Except.pure] using ho

/-- **C53 (header with point names).**  When the header starts with `'pointNames'` the first column
becomes the point names as well. -/
theorem C53_data_automatic_both (C : CellOps V) {first second : List V} {rest : List (List V)}
    {n : Nat} (hn : 1 < n) (hr : ∀ r ∈ first :: second :: rest, r.length = n)
    (hh : Header C first second) (hs : ∀ v s, C.asStr v = some s → C.toStr v = s)
    (hp : first.head?.bind C.asStr = some "pointNames")
    (hd : (((second :: rest).filterMap List.head?).map C.toStr).Nodup) :
    ∃ o, nimbleData C .auto .auto (first :: second :: rest) = .ok o ∧
      HoldsRows o ((second :: rest).map (fun r => r.tail.map C.stored)) (n - 1)
        (some (((second :: rest).filterMap List.head?).map (fun v => some (C.toStr v))))
        (some (first.tail.map C.asStr)) := by
  have hne : ∀ r ∈ first :: second :: rest, r ≠ [] := by
    intro r h e; have := hr r h; rw [e] at this; simp at this; omega
  have hl := (looksLikeHeader_iff C _ _).2 hh
  have hsp : saysPointNames C first = true := by
    unfold saysPointNames
    exact decide_eq_true hp
  have hd' : autoDetect C .auto .auto (first :: second :: rest) = (true, true) := by
    match first, second, hne first (by simp), hne second (by simp) with
    | f :: fs, s :: ss, _, _ =>
      unfold autoDetect
      simp [hl, hsp]
  unfold Header at hh
  simp only [if_pos hp] at hh
  have hall : ∀ v ∈ first.tail, some (C.toStr v) = C.asStr v := by
    intro v hv
    obtain ⟨x, hx⟩ := hh.1 v (by simpa using hv)
    rw [hs v x hx, hx]
  have hmap : first.tail.map (fun v => some (C.toStr v)) = first.tail.map C.asStr :=
    List.map_congr_left hall
  have hinj : ∀ {l : List (Option String)}, l.Nodup → l.reduceOption.Nodup := by
    intro l h
    apply List.Nodup.filterMap _ h
    intro a b c ha hb
    simp at ha hb; rw [ha, hb]
  have hlen : (second :: rest).length = ((second :: rest).filterMap List.head?).length := by
    have : ∀ l : List (List V), (∀ r ∈ l, r ≠ []) → l.length = (l.filterMap List.head?).length := by
      intro l
      induction l with
      | nil => intro _; rfl
      | cons r rs ih =>
        intro h
        have h2 := ih (fun r' hr' => h r' (by simp [hr']))
        match r, h r (by simp) with
        | v :: t, _ => simpa using h2
    exact this _ (fun r h => hne r (List.mem_cons_of_mem _ h))
  obtain ⟨o, ho, hh⟩ := finishData_ok C (rows := (second :: rest).map (fun r => r.tail.map C.stored))
    (n := n - 1) (by omega) (by simp) (by
      intro r hrr
      obtain ⟨r0, h0, rfl⟩ := List.mem_map.1 hrr
      rw [List.length_map, List.length_tail, hr r0 (List.mem_cons_of_mem _ h0)])
    (pn := some (((second :: rest).filterMap List.head?).map (fun v => some (C.toStr v))))
    (fn := some (first.tail.map C.asStr))
    ⟨by simpa using hlen.symm, by
      apply hinj
      have := hd.map (f := some) (fun a b h => Option.some.inj h)
      simpa [List.map_map, Function.comp_def] using this⟩
    ⟨by simp [hr first (by simp)], hinj hh.2.1⟩
  refine ⟨o, ?_, hh⟩
  have hpop := popColumn_ok hne
  obtain ⟨f, hf⟩ : ∃ f, first.head? = some f := by
    cases first with
    | nil => exact absurd rfl (hne [] (by simp))
    | cons f fs => exact ⟨f, rfl⟩
  have hpop' : (first :: second :: rest).filterMap List.head? =
      f :: (second :: rest).filterMap List.head? := by
    rw [List.filterMap_cons, hf]
  rw [hpop', List.map_cons] at hpop
  unfold nimbleData
  simp only [hd', List.isEmpty_cons, Bool.false_and]
  simp only [takePointNames, takeFeatureNames, hpop]
  simp only [← hmap] at ho
  simpa [chosenNames, replaceMissing_eq, bind, Except.bind, pure, Except.pure, Function.comp_def] using ho

/-- **C53 (ragged rows).**  Rows of different lengths are refused. -/
theorem C53_data_ragged_refused (C : CellOps V) {rows : List (List V)} {pn fn : NamesArg}
    (hpa : pn ≠ .auto ∧ pn ≠ .yes) (hfa : fn ≠ .auto ∧ fn ≠ .yes)
    {r r' : List V} (h1 : r ∈ rows) (h2 : r' ∈ rows) (hr : r.length ≠ r'.length) :
    nimbleData C pn fn rows = .error .InvalidArgumentValue := by
  have hd := autoDetect_off C rows hpa hfa
  have hs : sameLengths (replaceMissing C rows) = false := by
    rw [Bool.eq_false_iff]
    intro h
    rw [sameLengths_iff, replaceMissing_eq] at h
    have := h (r.map C.stored) (List.mem_map_of_mem h1) (r'.map C.stored) (List.mem_map_of_mem h2)
    simp at this
    exact hr this
  unfold nimbleData
  simp only [hd, Bool.or_self, Bool.and_false]
  simp only [takePointNames, takeFeatureNames]
  simp [finishData, hs, bind, Except.bind, pure, Except.pure]

/-- Elements for the concrete cases below: numbers, text, and a stored nan. -/
inductive Cell where
  | num (i : Int)
  | str (s : String)
  | nan
  deriving DecidableEq

def Cell.asStr : Cell → Option String
  | .str s => some s
  | _ => none

def Cell.isNum : Cell → Bool
  | .str _ => false
  | _ => true

def Cell.toStr : Cell → String
  | .str s => s
  | .num i => toString i
  | .nan => "nan"

/-- `DEFAULT_MISSING` (_createHelpers.py:60). -/
def Cell.missing : Cell → Bool
  | .str s => s ∈ ["", "None", "nan", "NULL", "NA"]
  | .nan => true
  | _ => false

/-- The default settings of `nimble.data`. -/
def cellOps (junk : Cell) : CellOps Cell := ⟨Cell.asStr, Cell.isNum, Cell.toStr, Cell.missing, .nan, junk⟩

/-- **C53 violated: invented values.**  Rows without any value together with feature names give an
object filled with whatever was in memory, instead of an error. -/
theorem C53_data_invents_values_violated (junk : Cell) :
    ∃ o, nimbleData (cellOps junk) .no (.given [some "a", some "b"]) [[], []] = .ok o ∧
      o.data = [[junk, junk], [junk, junk]] := ⟨_, rfl, rfl⟩

/-- A duplicate of the first header cell is not noticed by the detection, and the call is refused
although declining names would have stored the rows. -/
theorem C53_data_duplicate_header_violated (junk : Cell) :
    nimbleData (cellOps junk) .auto .auto [[.str "a", .str "a"], [.num 1, .num 2]] =
      .error .InvalidArgumentValue ∧
    ∃ o, nimbleData (cellOps junk) .no .no [[.str "a", .str "a"], [.num 1, .num 2]] = .ok o :=
  ⟨rfl, _, rfl⟩

/-- The hypotheses of the header theorem are met by an ordinary table. -/
example : Header (cellOps .nan) [.str "h", .str "w"] [.num 1, .str "x"] := by
  rw [← looksLikeHeader_iff]; rfl

/-! ## mapReduce -/

theorem addMapped_eq {K A : Type} [DecidableEq K] (d : PyDict K (List A)) (p : K × A) :
    addMapped d p = pushGroup d p.1 p.2 := by
  unfold addMapped pushGroup
  by_cases h : PyDict.has d p.1 = true
  · simp only [h, if_true]
  · simp only [h, Bool.false_eq_true, if_false]
    have hk : p.1 ∉ PyDict.keys d := fun hc => h (PyDict.has_iff.2 hc)
    have hg : PyDict.get? d p.1 = none := by
      by_contra hc
      exact hk (PyDict.mem_keys.2 (Option.isSome_iff_ne_none.2 hc))
    rw [PyDict.get?_set, if_pos rfl, hg]
    simp only [Option.getD_some, Option.getD_none, List.nil_append]
    have hset : ∀ (d : PyDict K (List A)) (v w : List A), p.1 ∉ PyDict.keys d →
        PyDict.set (PyDict.set d p.1 v) p.1 w = PyDict.set d p.1 w := by
      intro d
      induction d with
      | nil => intro v w _; simp [PyDict.set]
      | cons q qs ih =>
        intro v w hq
        have hq' : ¬ q.1 = p.1 ∧ p.1 ∉ PyDict.keys qs := by
          simp only [PyDict.keys, List.map_cons, List.mem_cons, not_or] at hq ⊢
          exact ⟨fun e => hq.1 e.symm, hq.2⟩
        simp only [PyDict.set, if_neg hq'.1, ih v w hq'.2]
    exact hset d _ _ hk

theorem foldl_addMapped {K A : Type} [DecidableEq K] (ls : List (List (K × A))) :
    ls.foldl (fun d l => l.foldl addMapped d) [] = groupPairs ls.flatten := by
  have h : (addMapped : PyDict K (List A) → K × A → PyDict K (List A)) =
      (fun d p => pushGroup d p.1 p.2) := by
    funext d p; exact addMapped_eq d p
  unfold groupPairs
  rw [List.foldl_flatten, h]

/-- The reducer calls that the documentation describes: one per distinct key in order of first
occurrence, with the values mapped to that key in order. -/
def reducerCalls {K A : Type} [DecidableEq K] (pairs : List (K × A)) : List (K × List A) :=
  (firstOcc (pairs.map Prod.fst)).map (fun k => (k, (pairs.filter (fun p => p.1 = k)).map Prod.snd))

/-- **C30 (reducer calls).**  For mappers and reducers that may raise: once the mapper has been
called on every point (feature) in order, mapReduce makes exactly the documented reducer calls in
order and builds the result from what they return. -/
theorem C30_mapReduce_calls {W K A : Type} [DecidableEq K] (C : CellOps V) (o : Obj W) (ax : Ax)
    (mapper : AxView W → Res (List (K × A))) (reducer : K → List A → Res (Option (V × V)))
    (hoff : (o.axis ax.off).len ≠ 0) (hax : (o.axis ax).len ≠ 0) {mapped : List (List (K × A))}
    (hm : mapRes mapper ((List.range (o.axis ax).len).map (o.view ax none)) = .ok mapped) :
    o.mapReduce C ax mapper reducer =
      (mapRes (fun c => reducer c.1 c.2) (reducerCalls mapped.flatten)).bind
        (fun red => nimbleData C .auto .auto (red.filterMap (Option.map (fun p => [p.1, p.2])))) := by
  unfold Obj.mapReduce
  rw [if_neg hoff, if_neg hax, hm]
  simp only [bind, Except.bind]
  rw [foldl_addMapped, groupPairs_eq]
  rfl

theorem mapRes_ok {A B : Type} (f : A → B) (l : List A) : mapRes (fun a => (.ok (f a) : Res B)) l = .ok (l.map f) := by
  induction l with
  | nil => rfl
  | cons a as ih => simp [mapRes, ih, bind, Except.bind, pure, Except.pure]

/-- **C30 (result), partial.**  When mapper and reducer return normally and the first two
reductions do not look like a header, the result has exactly one point `[key, value]` per non-None
reduction, in the order of the keys' first occurrence, and no names.  Missing for the full claim:
reductions that look like a header, see `C30_mapReduce_header_violated`. -/
theorem C30_mapReduce_result_partial {W K A : Type} [DecidableEq K] (C : CellOps V) (o : Obj W)
    (ax : Ax) (m : AxView W → List (K × A)) (r : K → List A → Option (V × V))
    (hoff : (o.axis ax.off).len ≠ 0) (hax : (o.axis ax).len ≠ 0) {red : List (V × V)}
    (hred : red = (reducerCalls (((List.range (o.axis ax).len).map (o.view ax none)).flatMap m)).filterMap
      (fun c => r c.1 c.2)) (hne : red ≠ [])
    (hh : ∀ x y rest, red = x :: y :: rest → ¬ Header C [x.1, x.2] [y.1, y.2]) :
    ∃ res, o.mapReduce C ax (fun v => .ok (m v)) (fun k vs => .ok (r k vs)) = .ok res ∧
      HoldsRows res (red.map (fun p => [C.stored p.1, C.stored p.2])) 2 none none := by
  have hm := mapRes_ok m ((List.range (o.axis ax).len).map (o.view ax none))
  have hc := C30_mapReduce_calls C o ax (fun v => .ok (m v)) (fun k vs => .ok (r k vs)) hoff hax hm
  rw [hc, ← List.flatMap_def, mapRes_ok (fun (c : K × List A) => r c.1 c.2)]
  have e : (((reducerCalls (((List.range (o.axis ax).len).map (o.view ax none)).flatMap m)).map
      (fun c => r c.1 c.2)).filterMap (Option.map (fun p => [p.1, p.2]))) =
      red.map (fun p => [p.1, p.2]) := by
    rw [hred, List.filterMap_map, List.map_filterMap]
    rfl
  simp only [Except.bind, e]
  obtain ⟨res, h1, h2⟩ := C53_data_automatic_no_header C (rows := red.map (fun p => [p.1, p.2]))
    (n := 2) (by omega) (by simpa using hne) (by
      intro x hx; obtain ⟨p, _, rfl⟩ := List.mem_map.1 hx; rfl) (by
      intro f s rest e
      match red, e with
      | x :: y :: t, e =>
        simp only [List.map_cons, List.cons.injEq] at e
        obtain ⟨rfl, rfl, _⟩ := e
        exact hh x y t rfl)
  refine ⟨res, h1, ?_⟩
  simpa [Function.comp_def] using h2

/-- An object with two points. -/
def mrObj : Obj Nat := ⟨[[1], [2]], ⟨2, none⟩, ⟨1, none⟩⟩

/-- **C30 violated.**  If the first reduction is a pair of texts and the second contains a number,
the first reduction is taken as feature names: two non-None reductions give one point. -/
theorem C30_mapReduce_header_violated :
    ∃ res, mrObj.mapReduce (cellOps .nan) .point
        (fun v => .ok [(v.vals, 0)])
        (fun k _ => if k = [1] then .ok (some (.str "a", .str "b")) else .ok (some (.str "c", .num 2)))
        = .ok res ∧ res.pts.len = 1 ∧ res.fts.getNames = [some "a", some "b"] := ⟨_, rfl, rfl, rfl⟩

/-- An empty axis gives an empty object; no points along the other axis is refused. -/
theorem C30_mapReduce_empty {W K A : Type} [DecidableEq K] (C : CellOps V) (o : Obj W) (ax : Ax)
    (mapper : AxView W → Res (List (K × A))) (reducer : K → List A → Res (Option (V × V))) :
    ((o.axis ax.off).len = 0 → o.mapReduce C ax mapper reducer = .error .ImproperObjectAction) ∧
    ((o.axis ax.off).len ≠ 0 → (o.axis ax).len = 0 →
      ∃ res, o.mapReduce C ax mapper reducer = .ok res ∧ res.data = [] ∧ res.pts.len = 0 ∧
        res.fts.len = 0) := by
  constructor
  · intro h; unfold Obj.mapReduce; rw [if_pos h]
  · intro h h2
    refine ⟨⟨[], ⟨0, none⟩, ⟨0, none⟩⟩, ?_, rfl, rfl, rfl⟩
    unfold Obj.mapReduce; rw [if_neg h, if_pos h2]; rfl

end Nimble
