import Verif.Model.CsvKeep
import Verif.Props.CsvWitness
import Mathlib.Data.List.Nodup
import Mathlib.Data.List.Perm.Subperm
import Mathlib.Data.List.Forall2
import Mathlib.Tactic.Choose

/-!
# C84: keepPoints and keepFeatures of a csv file
-/

namespace Nimble.Csv
variable {F : Type}

/-! ## Specification -/

/-- The member of a keep list stands for the `m`-th of `n` points (features) named `nm`: its index, counted from 0, or
its name. -/
def StandsFor (n : Nat) (nm : Nat → Option Str) : KId → Nat → Prop
  | .int i, m => m < n ∧ i = m
  | .str s, m => m < n ∧ nm m = some s

/-- The values of a row of the file. -/
def valsOf (p : NArg) (row : List Str) : List Str := if p = .yes then row.tail else row

/-- The name the `m`-th row is known by: the first entry of the row, or the given one, if names are given for more
points than are kept. -/
def nameOf (p : NArg) (keepLen m : Nat) (row : List Str) : Option Str :=
  match p with
  | .yes => some (row.headD [])
  | .given l => if keepLen < l.length then l.getD m none else none
  | _ => none

def nameAt (p : NArg) (keepLen : Nat) (rows : List (List Str)) (m : Nat) : Option Str :=
  (rows[m]?).bind (nameOf p keepLen m)

/-- `text` is what the features `jf` (`none`: all) of the values are. -/
def TextOf (jf : Option (List Nat)) (vals text : List Str) : Prop :=
  match jf with
  | none => text = vals
  | some js => text.length = js.length ∧ ∀ (j b : Nat), js[j]? = some b → text[j]? = vals[b]? ∧ b < vals.length

/-- The types of the features found in rows read in this order (C60). -/
def colTypes (P : NumParse F) : List (List Str) → Option (List Col)
  | [] => none
  | r :: rs => some (rs.foldl (nextCols P) (r.map (Col.first P)))

/-- The points `ip` of the file, in the order of the list, are the kept ones. -/
structure PointsKept (p : NArg) (rows : List (List Str)) (ids : List KId) (ip : List Nat) : Prop where
  stands : List.Forall₂ (StandsFor rows.length (nameAt p ids.length rows)) ids ip
  only : ∀ (k m : Nat) (id : KId), ids[k]? = some id → StandsFor rows.length (nameAt p ids.length rows) id m →
    ip[k]? = some m
  distinct : ip.Nodup

/-- The features `jf` of the file, in the order of the list, are the kept ones; `known` are the names of the features
of the file, if known, and `out` the names of the kept features. -/
inductive FeaturesKept (f : NArg) (known : Option (List (Option Str))) : Option (List KId) → Option (List Nat) →
    Option (List (Option Str)) → Prop
  | all : FeaturesKept f known none none known
  | named (l) (ids : List KId) (jf : List Nat) (out : List (Option Str)) (hk : known = some l)
      (hlen : f = .yes ∨ l.length ≠ ids.length)
      (stands : List.Forall₂ (StandsFor l.length (fun j => l.getD j none)) ids jf) (distinct : jf.Nodup)
      (len : out.length = jf.length) (names : ∀ (j b : Nat), jf[j]? = some b → out[j]? = l[b]?) :
      FeaturesKept f known (some ids) (some jf) (some out)
  | numbered (ids : List KId) (jf : List Nat) (hk : known = none ∨ ∃ l, known = some l ∧ (l = [] ∨ l.length = ids.length))
      (stands : List.Forall₂ (fun id j => id = .int (j : Nat)) ids jf) (distinct : jf.Nodup) :
      FeaturesKept f known (some ids) (some jf) known

/-- The rows of the file without the header. -/
def bodyOf (f : NArg) (records : List (List Str)) : List (List Str) := if f = .yes then records.tail else records

/-- The names of the features of the file: from the header (an empty name is no name; the header of the point names is
not one), or the given ones. -/
def knownNames (p f : NArg) (records : List (List Str)) : Option (List (Option Str)) :=
  match f with
  | .yes => some ((valsOf p (records.headD [])).map (fun n => if n = [] then none else some n))
  | .given l => some l
  | _ => none

/-- The last feature is empty and unnamed. -/
def LastUnused (e : Bool) (f : NArg) (fnames : Option (List (Option Str))) (types : List Col) : Prop :=
  e = true ∧ types.getLast? = some .empty ∧
    (fnames.getD [] = [] ∨ (fnames.getD []).length = types.length - 1 ∨
      f = .yes ∧ (fnames.getD []).getLast? = some none)

/-- What is made of the rows `text`, which were read in the order `inFile`: the types of the features are those of
the kept values alone; an empty unnamed last feature is dropped if all features are kept. -/
structure MadeOf (P : NumParse F) (e : Bool) (f : NArg) (all : Prop) (inFile text : List (List Str))
    (fnames : Option (List (Option Str))) (r : Loaded F) : Prop where
  whole : ¬ (all ∧ LastUnused e f fnames ((colTypes P inFile).getD [])) →
    convertRows P (((colTypes P inFile).getD []).map (Col.final e)) text = .ok r.data ∧ r.fnames = fnames
  less : all → LastUnused e f fnames ((colTypes P inFile).getD []) →
    convertRows P (((colTypes P inFile).getD []).map (Col.final e)).dropLast (text.map List.dropLast) = .ok r.data ∧
      r.fnames = if f = .yes then fnames.map List.dropLast else fnames

/-- The names of the kept points `ip`: from the file; or the given list, if it has the length of the keep list;
or their names in the given list. -/
structure NamesKept (p : NArg) (rows : List (List Str)) (n : Nat) (ip : List Nat)
    (pnames : Option (List (Option Str))) : Prop where
  file : p = .yes → ∃ pn, pnames = some pn ∧ pn.length = n ∧
    ∀ (k m : Nat) (row : List Str), ip[k]? = some m → rows[m]? = some row → pn[k]? = some (some (row.headD []))
  given : ∀ l, p = .given l → l ≠ [] → l.length = n → pnames = some l
  picked : ∀ l, p = .given l → l ≠ [] → l.length ≠ n → ∃ pn, pnames = some pn ∧ pn.length = n ∧
    ∀ (k m : Nat), ip[k]? = some m → m < l.length ∧ pn[k]? = l[m]?
  no : p = .no ∨ p = .auto ∨ p = .given [] → pnames = none

/-! ## Lemmas -/

/-- One used row. -/
structure Hit where
  m : Nat
  loc : KId
  name : Option Str
  kept : List Str

instance : Inhabited Hit := ⟨⟨0, .int 0, none, []⟩⟩

/-- Under which member of the list the row is located. -/
def hit (ids : List KId) (i : Nat) (name : Option Str) : Option KId :=
  if hasName ids name then some (.str (name.getD []))
  else if hasIndex ids i then some (.int i) else none

theorem hit_mem {ids : List KId} {i : Nat} {name : Option Str} {loc : KId} (h : hit ids i name = some loc) :
    loc ∈ ids := by
  unfold hit at h
  split at h
  · rename_i hn
    cases h
    cases name with
    | none => cases hn
    | some s => simpa [hasName] using hn
  · split at h
    · rename_i _ hi
      cases h
      simpa [hasIndex] using hi
    · cases h

theorem hit_stands {ids : List KId} {p : NArg} {rows : List (List Str)} {m : Nat} {row : List Str} {loc : KId}
    (hrow : rows[m]? = some row) (h : hit ids m (nameOf p ids.length m row) = some loc) :
    StandsFor rows.length (nameAt p ids.length rows) loc m := by
  have hm : m < rows.length := (List.getElem?_eq_some_iff.mp hrow).1
  have hna : nameAt p ids.length rows m = nameOf p ids.length m row := by simp [nameAt, hrow]
  unfold hit at h
  split at h
  · rename_i hn
    cases h
    cases hc : nameOf p ids.length m row with
    | none => rw [hc] at hn; cases hn
    | some s => exact ⟨hm, by rw [hna, hc]; rfl⟩
  · split at h
    · cases h
      exact ⟨hm, rfl⟩
    · cases h

theorem stands_hit {ids : List KId} {p : NArg} {rows : List (List Str)} {m : Nat} {row : List Str} {id : KId}
    (hrow : rows[m]? = some row) (hid : id ∈ ids)
    (hc : ¬ (hasIndex ids m = true ∧ hasName ids (nameOf p ids.length m row) = true))
    (h : StandsFor rows.length (nameAt p ids.length rows) id m) :
    hit ids m (nameOf p ids.length m row) = some id := by
  have hna : nameAt p ids.length rows m = nameOf p ids.length m row := by simp [nameAt, hrow]
  unfold hit
  cases id with
  | int i =>
    obtain ⟨_, rfl⟩ := h
    have hi : hasIndex ids m = true := by simpa [hasIndex] using hid
    rw [if_neg (fun hn => hc ⟨hi, hn⟩), if_pos hi]
  | str s =>
    have hs : nameOf p ids.length m row = some s := by rw [← hna]; exact h.2
    rw [hs, if_pos (by simpa [hasName] using hid)]
    rfl

theorem limitRow_ok {vals : List Str} : ∀ {js : List Nat} {text : List Str}, limitRow vals js = .ok text →
    text.length = js.length ∧ ∀ (j b : Nat), js[j]? = some b → text[j]? = vals[b]? ∧ b < vals.length
  | [], text, h => by
    simp only [limitRow] at h
    cases h
    simp
  | j0 :: js, text, h => by
    simp only [limitRow] at h
    cases hv : vals[j0]? with
    | none => rw [hv] at h; cases h
    | some v =>
      rw [hv] at h
      simp only [bind, Except.bind, pure, Except.pure] at h
      cases hr : limitRow vals js with
      | error e => rw [hr] at h; cases h
      | ok r =>
        rw [hr] at h
        cases h
        obtain ⟨h1, h2⟩ := limitRow_ok hr
        refine ⟨by simp [h1], ?_⟩
        intro j b hj
        cases j with
        | zero =>
          cases hj
          exact ⟨by simp [hv], (List.getElem?_eq_some_iff.mp hv).1⟩
        | succ j => simpa using h2 j b (by simpa using hj)

theorem keptVals_ok {kF : Option (List Nat)} {vals text : List Str} (h : keptVals kF vals = .ok text) :
    TextOf kF vals text := by
  cases kF with
  | none => cases h; rfl
  | some js => exact limitRow_ok h

theorem colTypes_append (P : NumParse F) (rs : List (List Str)) (r : List Str) :
    colTypes P (rs ++ [r]) = some (trackCols P (colTypes P rs) r) := by
  cases rs with
  | nil => rfl
  | cons a rs => simp [colTypes, trackCols, List.foldl_append]

/-- The state of the loop after `i` rows, and the rows used so far. -/
structure Inv (P : NumParse F) (p : NArg) (fnames : Option (List (Option Str))) (ids : List KId)
    (kF : Option (List Nat)) (R : List (List Str)) (s : KLoop) (i : Nat) (hs : List Hit) : Prop where
  sp : s.p = p
  strack : s.track = false
  sfn : s.fnames = fnames
  located : s.located = hs.map Hit.loc
  cols : s.cols = colTypes P (hs.map Hit.kept)
  dlen : s.data.length = ids.length
  elen : s.extracted.length = ids.length
  sound : ∀ h ∈ hs, h.m < i ∧ ∃ row, R[h.m]? = some row ∧ h.name = nameOf p ids.length h.m row ∧
    hit ids h.m h.name = some h.loc ∧ keptVals kF (valsOf p row) = .ok h.kept
  complete : ∀ (m : Nat) (row : List Str), m < i → R[m]? = some row →
    ¬ (hasIndex ids m = true ∧ hasName ids (nameOf p ids.length m row) = true) ∧
    (∀ l, p = .given l → ids.length < l.length → m < l.length) ∧
    ∀ loc, hit ids m (nameOf p ids.length m row) = some loc → ∃ h ∈ hs, h.m = m ∧ h.loc = loc
  order : hs.Pairwise (fun a b => a.m < b.m)
  flen : kF = none → ∀ h ∈ hs, s.firstLen = some h.kept.length
  data : s.data = hs.foldl (fun d h => d.set (ids.idxOf h.loc) (some h.kept)) (List.replicate ids.length none)
  names : p = .yes → s.extracted = hs.foldl (fun d h => d.set (ids.idxOf h.loc) h.name)
    (List.replicate ids.length none)

theorem keepRow_ok {P : NumParse F} {p : NArg} {fnames : Option (List (Option Str))} {ids : List KId}
    {kF : Option (List Nat)} {R : List (List Str)} {s s' : KLoop} {i : Nat} {hs : List Hit}
    (I : Inv P p fnames ids kF R s i hs) {row : List Str} (hrow : R[i]? = some row)
    (h : s.row P (some ids) kF i row = .ok s') : ∃ hs', Inv P p fnames ids kF R s' (i + 1) hs' := by
  -- the name and the values
  have hname : s.takeName ids.length i row = .ok (s, nameOf p ids.length i row, valsOf p row) ∧
      (∀ l, p = .given l → ids.length < l.length → i < l.length) ∨
      ∃ e, s.takeName ids.length i row = .error e := by
    unfold KLoop.takeName KLoop.named
    rw [I.sp, I.strack]
    by_cases hy : p = .yes
    · left
      subst hy
      exact ⟨rfl, by intro l hl; cases hl⟩
    · have : (decide (p = .yes) || false) = false := by simp [hy]
      rw [this]
      simp only [Bool.false_eq_true, if_false, bind, Except.bind, pure, Except.pure]
      have hv : valsOf p row = row := by unfold valsOf; rw [if_neg hy]
      rw [hv]
      cases p with
      | auto => exact .inl ⟨rfl, by intro l hl; cases hl⟩
      | yes => exact absurd rfl hy
      | no => exact .inl ⟨rfl, by intro l hl; cases hl⟩
      | given l =>
        unfold givenName nameOf
        dsimp only
        by_cases hl : ids.length < l.length
        · rw [if_pos hl, if_pos hl]
          cases hi : l[i]? with
          | none => exact .inr ⟨_, rfl⟩
          | some n =>
            left
            refine ⟨by simp [List.getD, hi], ?_⟩
            intro l' hl' _
            cases hl'
            exact (List.getElem?_eq_some_iff.mp hi).1
        · rw [if_neg hl, if_neg hl]
          left
          refine ⟨rfl, ?_⟩
          intro l' hl' hlt
          cases hl'
          exact absurd hlt hl
  unfold KLoop.row at h
  simp only [Option.map_some, Option.getD_some, bind, Except.bind] at h
  rcases hname with ⟨hname, hgiven⟩ | ⟨e, he⟩
  swap
  · rw [he] at h; cases h
  rw [hname] at h
  dsimp only at h
  by_cases hbad : s.validated = false ∧ tooLarge kF (valsOf p row).length = true
  · rw [if_pos hbad] at h; cases h
  rw [if_neg hbad] at h
  set nm := nameOf p ids.length i row with hnm
  by_cases hconf : isConflict (some ids) i nm = true
  · rw [if_pos hconf] at h; cases h
  rw [if_neg hconf] at h
  have hcf : ¬ (hasIndex ids i = true ∧ hasName ids nm = true) := by
    simpa [isConflict] using hconf
  have step : ∀ (hs' : List Hit), (∀ x ∈ hs, x ∈ hs') →
      (∀ loc, hit ids i nm = some loc → ∃ x ∈ hs', x.m = i ∧ x.loc = loc) →
      ∀ (m : Nat) (row : List Str), m < i + 1 → R[m]? = some row →
        ¬ (hasIndex ids m = true ∧ hasName ids (nameOf p ids.length m row) = true) ∧
        (∀ l, p = .given l → ids.length < l.length → m < l.length) ∧
        ∀ loc, hit ids m (nameOf p ids.length m row) = some loc → ∃ x ∈ hs', x.m = m ∧ x.loc = loc := by
    intro hs' hsub hnew m row' hm hrow'
    by_cases hmi : m = i
    · subst hmi
      rw [hrow] at hrow'
      cases hrow'
      exact ⟨hcf, hgiven, hnew⟩
    · obtain ⟨c1, c2, c3⟩ := I.complete m row' (by omega) hrow'
      refine ⟨c1, c2, ?_⟩
      intro loc hloc
      obtain ⟨x, hx, h1, h2⟩ := c3 loc hloc
      exact ⟨x, hsub x hx, h1, h2⟩
  by_cases hused : isUsed (some ids) i nm = true
  swap
  · rw [if_neg hused] at h
    cases h
    refine ⟨hs, I.sp, I.strack, I.sfn, I.located, I.cols, I.dlen, I.elen, ?_, ?_, I.order, I.flen, I.data, I.names⟩
    · intro x hx
      obtain ⟨h1, h2⟩ := I.sound x hx
      exact ⟨by omega, h2⟩
    · refine step hs (fun _ h => h) ?_
      intro loc hloc
      exfalso
      apply hused
      unfold hit at hloc
      simp only [isUsed, Bool.or_eq_true]
      split at hloc
      · exact .inr ‹_›
      · split at hloc
        · exact .inl ‹_›
        · cases hloc
  rw [if_pos hused] at h
  unfold KLoop.use at h
  by_cases hff : s.firstLen.isSome ∧ s.firstLen ≠ some (valsOf p row).length
  · rw [if_pos hff] at h; cases h
  rw [if_neg hff] at h
  by_cases hfl : s.validated = false ∧ (kF.map List.length) = some (valsOf p row).length
  · rw [if_pos hfl] at h; cases h
  rw [if_neg hfl] at h
  simp only [bind, Except.bind, pure, Except.pure] at h
  cases hk : keptVals kF (valsOf p row) with
  | error e => rw [hk] at h; cases h
  | ok kept =>
  rw [hk] at h
  dsimp only at h
  have hloc : hit ids i nm = some (if hasName ids nm then KId.str (nm.getD []) else KId.int i) := by
    unfold hit
    by_cases hn : hasName ids nm = true
    · rw [if_pos hn, if_pos hn]
    · rw [if_neg hn, if_neg hn, if_pos]
      simp only [isUsed, Bool.or_eq_true] at hused
      tauto
  simp only [KLoop.place] at h
  generalize (if hasName ids nm = true then KId.str (nm.getD []) else KId.int i) = loc at h hloc
  cases h
  refine ⟨hs ++ [⟨i, loc, nm, kept⟩], I.sp, I.strack, I.sfn, ?_, ?_, ?_, ?_, ?_, ?_, ?_, ?_, ?_, ?_⟩
  · show s.located ++ [loc] = _
    rw [I.located]; simp
  · show some (trackCols P s.cols kept) = _
    rw [I.cols, List.map_append]
    exact (colTypes_append P _ _).symm
  · show (s.data.set _ _).length = _
    rw [List.length_set]; exact I.dlen
  · dsimp only
    split
    · rw [List.length_set]; exact I.elen
    · exact I.elen
  · intro x hx
    rcases List.mem_append.mp hx with hx | hx
    · obtain ⟨h1, h2⟩ := I.sound x hx
      exact ⟨by omega, h2⟩
    · rw [List.mem_singleton] at hx
      subst hx
      exact ⟨by show i < i + 1; omega, row, hrow, rfl, hloc, hk⟩
  · refine step _ (fun x hx => by simp [hx]) ?_
    intro loc' hloc'
    rw [hloc] at hloc'
    cases hloc'
    exact ⟨⟨i, loc, nm, kept⟩, by simp, rfl, rfl⟩
  · rw [List.pairwise_append]
    refine ⟨I.order, by simp, ?_⟩
    intro a ha b hb
    rw [List.mem_singleton] at hb
    subst hb
    exact (I.sound a ha).1
  · intro hkn x hx
    subst hkn
    cases hk
    show some (valsOf p row).length = _
    rcases List.mem_append.mp hx with hx | hx
    · have hfx := I.flen rfl x hx
      by_contra hne
      apply hff
      rw [hfx]
      refine ⟨rfl, ?_⟩
      intro he
      exact hne he.symm
    · rw [List.mem_singleton] at hx
      subst hx
      rfl
  · show s.data.set _ _ = _
    rw [I.data, List.foldl_append]
    rfl
  · intro hy
    dsimp only
    have : KLoop.named { s with firstLen := some (valsOf p row).length, validated := true, cols := some (trackCols P s.cols kept) } = true := by
      simp [KLoop.named, I.sp, hy]
    rw [if_pos this, I.names hy, List.foldl_append]
    rfl

theorem keepRows_ok {P : NumParse F} {p : NArg} {fnames : Option (List (Option Str))} {ids : List KId}
    {kF : Option (List Nat)} {R : List (List Str)} : ∀ (rs : List (List Str)) {s s' : KLoop} {i : Nat} {hs : List Hit},
    Inv P p fnames ids kF R s i hs → R.drop i = rs → KLoop.rows P (some ids) kF s i rs = .ok s' →
    ∃ hs', Inv P p fnames ids kF R s' (i + rs.length) hs'
  | [], s, s', i, hs, I, _, h => by
    cases h
    exact ⟨hs, I⟩
  | r :: rs, s, s', i, hs, I, hd, h => by
    simp only [KLoop.rows, bind, Except.bind] at h
    cases h1 : s.row P (some ids) kF i r with
    | error e => rw [h1] at h; cases h
    | ok s1 =>
      rw [h1] at h
      dsimp only at h
      have hrow : R[i]? = some r := by
        have := congrArg (fun l => l[0]?) hd
        simpa using this
      obtain ⟨hs1, I1⟩ := keepRow_ok I hrow h1
      obtain ⟨hs', I'⟩ := keepRows_ok rs I1 (by
        rw [← List.tail_drop, hd]; rfl) h
      refine ⟨hs', ?_⟩
      have : i + (r :: rs).length = i + 1 + rs.length := by simp; omega
      rw [this]
      exact I'


theorem foldl_set_other {A B : Type} (g : A → Nat) (v : A → B) (k : Nat) : ∀ (hs : List A) (d : List B),
    k ∉ hs.map g → (hs.foldl (fun d h => d.set (g h) (v h)) d)[k]? = d[k]?
  | [], _, _ => rfl
  | h :: hs, d, hk => by
    rw [List.map_cons, List.mem_cons, not_or] at hk
    rw [List.foldl_cons, foldl_set_other g v k hs _ hk.2, List.getElem?_set_ne (fun he => hk.1 he.symm)]

theorem foldl_set_at {A B : Type} (g : A → Nat) (v : A → B) : ∀ (hs : List A) (d : List B),
    (hs.map g).Nodup → ∀ h ∈ hs, g h < d.length → (hs.foldl (fun d h => d.set (g h) (v h)) d)[g h]? = some (v h)
  | [], _, _, h, hm, _ => by simp at hm
  | a :: hs, d, hn, h, hm, hl => by
    rw [List.map_cons, List.nodup_cons] at hn
    rw [List.foldl_cons]
    rcases List.mem_cons.mp hm with rfl | hm
    · rw [foldl_set_other g v _ hs _ hn.1, List.getElem?_set_self hl]
    · exact foldl_set_at g v hs _ hn.2 h hm (by simpa using hl)

theorem allRows_ok : ∀ {d : List (Option (List Str))} {rows : List (List Str)}, allRows d = .ok rows →
    d = rows.map some
  | [], rows, h => by cases h; rfl
  | none :: _, _, h => by cases h
  | some r :: d, rows, h => by
    simp only [allRows, bind, Except.bind, pure, Except.pure] at h
    cases hr : allRows d with
    | error e => rw [hr] at h; cases h
    | ok t =>
      rw [hr] at h
      cases h
      rw [allRows_ok hr]
      rfl

theorem pickNames_ok {l : List (Option Str)} : ∀ {ids : List KId} {out : List (Option Str)}, pickNames l ids = .ok out →
    out.length = ids.length ∧ ∀ (k : Nat) (id : KId), ids[k]? = some id →
      (∀ s, id = .str s → out[k]? = some (some s)) ∧ (∀ i : Nat, id = .int i → out[k]? = l[i]?)
  | [], out, h => by cases h; simp
  | .str s :: ids, out, h => by
    simp only [pickNames, bind, Except.bind, pure, Except.pure] at h
    cases hr : pickNames l ids with
    | error e => rw [hr] at h; cases h
    | ok t =>
      rw [hr] at h
      cases h
      obtain ⟨h1, h2⟩ := pickNames_ok hr
      refine ⟨by simp [h1], ?_⟩
      intro k id hk
      cases k with
      | zero =>
        cases hk
        refine ⟨?_, ?_⟩
        · intro s' he; cases he; rfl
        · intro i he; cases he
      | succ k => simpa using h2 k id (by simpa using hk)
  | .int i :: ids, out, h => by
    simp only [pickNames] at h
    cases hi : l[i.toNat]? with
    | none => rw [hi] at h; cases h
    | some n =>
      rw [hi] at h
      simp only [bind, Except.bind, pure, Except.pure] at h
      cases hr : pickNames l ids with
      | error e => rw [hr] at h; cases h
      | ok t =>
        rw [hr] at h
        cases h
        obtain ⟨h1, h2⟩ := pickNames_ok hr
        refine ⟨by simp [h1], ?_⟩
        intro k id hk
        cases k with
        | zero =>
          cases hk
          refine ⟨?_, ?_⟩
          · intro s' he; cases he
          · intro i' he
            cases he
            rw [List.getElem?_cons_zero, ← hi]
            simp
        | succ k => simpa using h2 k id (by simpa using hk)

/-- What the loop leaves when it ends well: every member of the list is located exactly once. -/
theorem located_once {P : NumParse F} {p : NArg} {fnames : Option (List (Option Str))} {ids : List KId}
    {kF : Option (List Nat)} {R : List (List Str)} {s : KLoop} {hs : List Hit} (hd : ids.Nodup)
    (I : Inv P p fnames ids kF R s R.length hs) {rows : List (List Str)} (hr : s.data = rows.map some)
    (hl : ids.length = s.located.length) :
    ∃ (ip : List Nat), PointsKept p R ids ip ∧ rows.length = ids.length ∧
      (∀ (k m : Nat) (row : List Str), ip[k]? = some m → R[m]? = some row →
        ∃ text, rows[k]? = some text ∧ TextOf kF (valsOf p row) text) ∧
      (p = .yes → ∀ (k m : Nat), ip[k]? = some m → s.extracted[k]? = some (nameAt p ids.length R m)) ∧
      (∀ l, p = .given l → ids.length < l.length → ∀ m < R.length, m < l.length) ∧
      (hs.map Hit.m).Perm ip ∧ (hs.map Hit.m).Pairwise (· < ·) ∧
      ∀ h ∈ hs, ∃ k : Nat, ip[k]? = some h.m ∧ rows[k]? = some h.kept := by
  have hlen : rows.length = ids.length := by
    have := I.dlen
    rw [hr, List.length_map] at this
    exact this
  -- every member is located
  have hmem : ∀ id ∈ ids, id ∈ hs.map Hit.loc := by
    intro id hid
    by_contra hno
    have hk : ids.idxOf id < ids.length := List.idxOf_lt_length_of_mem hid
    have h1 : s.data[ids.idxOf id]? = some none := by
      rw [I.data, foldl_set_other (fun h : Hit => ids.idxOf h.loc) (fun h => some h.kept)]
      · simp [List.getElem?_replicate, hk]
      · intro hm
        obtain ⟨h, hh, he⟩ := List.mem_map.mp hm
        apply hno
        refine List.mem_map.mpr ⟨h, hh, ?_⟩
        have : h.loc ∈ ids := by
          obtain ⟨_, row, _, _, hx, _⟩ := I.sound h hh
          exact hit_mem hx
        exact (List.idxOf_inj this).mp he
    rw [hr, List.getElem?_map] at h1
    cases hc : rows[ids.idxOf id]? with
    | none => rw [hc] at h1; cases h1
    | some r => rw [hc] at h1; cases h1
  have hsub : ids.Subperm (hs.map Hit.loc) := hd.subperm hmem
  have hperm : ids.Perm (hs.map Hit.loc) := hsub.perm_of_length_le (by rw [hl, I.located]; exact Nat.le_refl _)
  have hnod : (hs.map Hit.loc).Nodup := hperm.nodup_iff.mp hd
  have hinj : ∀ a ∈ hs, ∀ b ∈ hs, a.loc = b.loc → a = b := fun a ha b hb he => List.inj_on_of_nodup_map hnod ha hb he
  have hlocmem : ∀ h ∈ hs, h.loc ∈ ids := fun h hh => hperm.mem_iff.mpr (List.mem_map_of_mem hh)
  -- the positions are distinct
  have hposnod : (hs.map (fun h => ids.idxOf h.loc)).Nodup := by
    refine List.Nodup.map_on ?_ (List.Nodup.of_map _ hnod)
    intro a ha b hb he
    exact hinj a ha b hb ((List.idxOf_inj (hlocmem a ha)).mp he)
  choose! f hf1 hf2 using fun id (hid : id ∈ ids) => List.mem_map.mp (hmem id hid)
  have hat : ∀ (k : Nat) (id : KId), ids[k]? = some id → ids.idxOf id = k := by
    intro k id hk
    obtain ⟨hlt, he⟩ := List.getElem?_eq_some_iff.mp hk
    rw [← he]
    exact hd.idxOf_getElem k hlt
  have hdata : ∀ h ∈ hs, rows[ids.idxOf h.loc]? = some h.kept := by
    intro h hh
    have := foldl_set_at (fun h : Hit => ids.idxOf h.loc) (fun h => some h.kept) hs (List.replicate ids.length none)
      hposnod h hh (by simpa using List.idxOf_lt_length_of_mem (hlocmem h hh))
    rw [← I.data, hr, List.getElem?_map] at this
    cases hc : rows[ids.idxOf h.loc]? with
    | none => rw [hc] at this; cases this
    | some r => rw [hc] at this; simpa using this
  have hip : ∀ (k m : Nat), (ids.map (fun id => (f id).m))[k]? = some m →
      ∃ id, ids[k]? = some id ∧ (f id).m = m := by
    intro k m hk
    rw [List.getElem?_map] at hk
    cases hc : ids[k]? with
    | none => rw [hc] at hk; cases hk
    | some id =>
      rw [hc] at hk
      exact ⟨id, rfl, by simpa using hk⟩
  refine ⟨ids.map (fun id => (f id).m), ⟨?_, ?_, ?_⟩, hlen, ?_, ?_, ?_, ?_, ?_, ?_⟩
  · rw [List.forall₂_map_right_iff, List.forall₂_same]
    intro id hid
    obtain ⟨hm, row, h1, h2, h3, h4⟩ := I.sound (f id) (hf1 id hid)
    rw [h2, hf2 id hid] at h3
    exact hit_stands h1 h3
  · intro k m id hk hst
    have hid := List.mem_of_getElem? hk
    have hm : m < R.length := by cases id <;> exact hst.1
    obtain ⟨row, hrow⟩ : ∃ row, R[m]? = some row := ⟨_, List.getElem?_eq_getElem hm⟩
    obtain ⟨c1, _, c3⟩ := I.complete m row hm hrow
    obtain ⟨h, hh, e1, e2⟩ := c3 id (stands_hit hrow hid c1 hst)
    have : h = f id := hinj h hh (f id) (hf1 id hid) (by rw [e2, hf2 id hid])
    rw [List.getElem?_map, hk, Option.map_some, ← this, e1]
  · refine List.Nodup.map_on ?_ hd
    intro a ha b hb he
    have : f a = f b := by
      by_contra hne
      have hor := I.order
      have key : ∀ {l : List Hit}, l.Pairwise (fun a b => a.m < b.m) → ∀ x ∈ l, ∀ y ∈ l, x.m = y.m → x = y := by
        intro l hl x hx y hy hxy
        induction hl with
        | nil => simp at hx
        | cons hb' _ ih =>
          rcases List.mem_cons.mp hx with rfl | hx
          · rcases List.mem_cons.mp hy with rfl | hy
            · rfl
            · have := hb' y hy; omega
          · rcases List.mem_cons.mp hy with rfl | hy
            · have := hb' x ‹_›; omega
            · exact ih hx hy
      exact hne (key hor _ (hf1 a ha) _ (hf1 b hb) he)
    rw [← hf2 a ha, ← hf2 b hb, this]
  · intro k m row hk hrow
    obtain ⟨id, hid, rfl⟩ := hip k m hk
    have hm := List.mem_of_getElem? hid
    obtain ⟨_, row', h1, h2, h3, h4⟩ := I.sound (f id) (hf1 id hm)
    rw [hrow] at h1
    cases h1
    refine ⟨(f id).kept, ?_, keptVals_ok h4⟩
    have := hdata (f id) (hf1 id hm)
    rwa [hf2 id hm, hat k id hid] at this
  · intro hy k m hk
    obtain ⟨id, hid, rfl⟩ := hip k m hk
    have hm := List.mem_of_getElem? hid
    obtain ⟨_, row', h1, h2, h3, h4⟩ := I.sound (f id) (hf1 id hm)
    have := foldl_set_at (fun h : Hit => ids.idxOf h.loc) (fun h => h.name) hs (List.replicate ids.length none)
      hposnod (f id) (hf1 id hm) (by simpa using List.idxOf_lt_length_of_mem (hlocmem _ (hf1 id hm)))
    rw [← I.names hy, hf2 id hm, hat k id hid] at this
    rw [this, h2]
    simp [nameAt, h1]
  · intro l hp hlt m hm
    exact (I.complete m _ hm (List.getElem?_eq_getElem hm)).2.1 l hp hlt
  · have : ids.map (fun id => (f id).m) = (ids.map f).map Hit.m := by rw [List.map_map]; rfl
    rw [this]
    refine List.Perm.map _ ?_
    have h1 : (ids.map f).Perm ((hs.map Hit.loc).map f) := hperm.map f
    refine (List.Perm.trans ?_ h1.symm)
    rw [List.map_map]
    have : hs.map (f ∘ Hit.loc) = hs := by
      conv_rhs => rw [← List.map_id hs]
      refine List.map_congr_left ?_
      intro h hh
      exact (hinj h hh (f h.loc) (hf1 _ (hlocmem h hh)) (hf2 _ (hlocmem h hh)).symm).symm
    rw [this]
  · rw [List.pairwise_map]; exact I.order
  · intro h hh
    refine ⟨ids.idxOf h.loc, ?_, hdata h hh⟩
    have hid : ids[ids.idxOf h.loc]? = some h.loc := by
      have hlt := List.idxOf_lt_length_of_mem (hlocmem h hh)
      rw [List.getElem?_eq_getElem hlt, List.getElem_idxOf]
    rw [List.getElem?_map, hid, Option.map_some]
    congr 1
    exact congrArg Hit.m (hinj h hh (f h.loc) (hf1 _ (hlocmem h hh)) (hf2 _ (hlocmem h hh)).symm).symm

theorem keepNumbers_ok : ∀ {ids : List KId} {js : List Nat}, keepNumbers ids = .ok js →
    List.Forall₂ (fun id (j : Nat) => id = KId.int j) ids js
  | [], js, h => by cases h; exact .nil
  | .str _ :: _, _, h => by cases h
  | .int i :: ids, js, h => by
    simp only [keepNumbers] at h
    by_cases hi : i < 0
    · rw [if_pos hi] at h; cases h
    rw [if_neg hi] at h
    simp only [bind, Except.bind, pure, Except.pure] at h
    cases hr : keepNumbers ids with
    | error e => rw [hr] at h; cases h
    | ok t =>
      rw [hr] at h
      cases h
      exact .cons (by congr; omega) (keepNumbers_ok hr)

theorem nodup_numbers : ∀ {ids : List KId} {js : List Nat}, List.Forall₂ (fun id (j : Nat) => id = KId.int j) ids js →
    ids.Nodup → js.Nodup := by
  intro ids js h hn
  have : ids = js.map (fun j : Nat => KId.int j) := by
    induction h with
    | nil => rfl
    | cons h1 _ ih => rw [List.map_cons, ← h1, ← ih (List.nodup_cons.mp hn).2]
  rw [this] at hn
  exact List.Nodup.of_map _ hn

theorem limitToKept_ok {names : List (Option Str)} : ∀ (ids : List KId) {idx out : List Nat}
    {kept okept : List (Option Str)}, limitToKept names idx kept ids = .ok (out, okept) →
    kept = idx.map (fun j => names.getD j none) → idx.Nodup → (∀ j ∈ idx, j < names.length) →
    okept = out.map (fun j => names.getD j none) ∧ out.Nodup ∧ (∀ j ∈ out, j < names.length) ∧
      ∃ new, out = idx ++ new ∧ List.Forall₂ (StandsFor names.length (fun j => names.getD j none)) ids new
  | [], idx, out, kept, okept, h, h1, h2, h3 => by
    cases h
    exact ⟨h1, h2, h3, [], by simp, .nil⟩
  | .str s :: ids, idx, out, kept, okept, h, h1, h2, h3 => by
    simp only [limitToKept] at h
    by_cases hm : some s ∈ names
    swap
    · rw [if_neg hm] at h; cases h
    rw [if_pos hm] at h
    by_cases hi : names.idxOf (some s) ∈ idx
    · rw [if_pos hi] at h; cases h
    rw [if_neg hi] at h
    have hlt : names.idxOf (some s) < names.length := List.idxOf_lt_length_of_mem hm
    have hg : names.getD (names.idxOf (some s)) none = some s := by
      rw [List.getD_eq_getElem?_getD, List.getElem?_eq_getElem hlt, List.getElem_idxOf]; rfl
    obtain ⟨r1, r2, r3, new, r4, r5⟩ := limitToKept_ok ids h (by rw [List.map_append, ← h1]; simp [← List.getD_eq_getElem?_getD, hg])
      (by rw [List.nodup_append]; exact ⟨h2, by simp, by intro a ha b hb; simp at hb; subst hb; intro e; subst e; exact hi ha⟩)
      (by intro j hj; rcases List.mem_append.mp hj with hj | hj
          · exact h3 j hj
          · simp at hj; subst hj; exact hlt)
    exact ⟨r1, r2, r3, names.idxOf (some s) :: new, by rw [r4]; simp, .cons ⟨hlt, hg⟩ r5⟩
  | .int i :: ids, idx, out, kept, okept, h, h1, h2, h3 => by
    simp only [limitToKept] at h
    by_cases hm : 0 ≤ i ∧ i < names.length
    swap
    · rw [if_neg hm] at h; cases h
    rw [if_pos hm] at h
    by_cases hi : names.getD i.toNat none ∈ kept
    · rw [if_pos hi] at h; cases h
    rw [if_neg hi] at h
    have hlt : i.toNat < names.length := by omega
    have hni : i.toNat ∉ idx := by
      intro hmem
      apply hi
      rw [h1]
      exact List.mem_map.mpr ⟨i.toNat, hmem, rfl⟩
    obtain ⟨r1, r2, r3, new, r4, r5⟩ := limitToKept_ok ids h (by rw [List.map_append, ← h1]; rfl)
      (by rw [List.nodup_append]; exact ⟨h2, by simp, by intro a ha b hb; simp at hb; subst hb; intro e; subst e; exact hni ha⟩)
      (by intro j hj; rcases List.mem_append.mp hj with hj | hj
          · exact h3 j hj
          · simp at hj; subst hj; exact hlt)
    exact ⟨r1, r2, r3, i.toNat :: new, by rw [r4]; simp, .cons ⟨hlt, by omega⟩ r5⟩

theorem keepFeats_ok {f : NArg} {known : Option (List (Option Str))} {keepF : Option (List KId)} {jf : Option (List Nat)}
    {out : Option (List (Option Str))} {v : Bool} (h : keepFeats f known keepF = .ok (jf, out, v)) :
    FeaturesKept f known keepF jf out := by
  cases keepF with
  | none => cases h; exact .all
  | some ids =>
    simp only [keepFeats, checkDup, bind, Except.bind, pure, Except.pure] at h
    by_cases hd : ids.Nodup
    swap
    · rw [if_neg hd] at h; cases h
    rw [if_pos hd] at h
    dsimp only at h
    by_cases hc : known.getD [] ≠ [] ∧ ((known.getD []).length ≠ ids.length ∨ f = .yes)
    · rw [if_pos hc] at h
      cases hl : limitToKept (known.getD []) [] [] ids with
      | error e => rw [hl] at h; cases h
      | ok t =>
        rw [hl] at h
        cases h
        obtain ⟨r1, r2, r3, new, r4, r5⟩ := limitToKept_ok ids hl rfl List.nodup_nil (by simp)
        rw [List.nil_append] at r4
        subst r4
        cases known with
        | none => exact absurd rfl hc.1
        | some l =>
          refine .named l ids t.1 t.2 rfl hc.2.symm r5 r2 (by rw [r1]; simp) ?_
          intro j b hj
          have hb : b < l.length := r3 b (List.mem_of_getElem? hj)
          rw [r1, List.getElem?_map, hj, List.getElem?_eq_getElem hb]
          simp [List.getElem?_eq_getElem hb]
    · rw [if_neg hc] at h
      cases hl : keepNumbers ids with
      | error e => rw [hl] at h; cases h
      | ok t =>
        rw [hl] at h
        cases h
        have := keepNumbers_ok hl
        refine .numbered ids t ?_ this (nodup_numbers this hd)
        cases known with
        | none => exact .inl rfl
        | some l =>
          right
          refine ⟨l, rfl, ?_⟩
          by_contra hcc
          rw [not_or] at hcc
          exact hc ⟨hcc.1, .inl hcc.2⟩

theorem startLoop_ok {p f : NArg} {records rest : List (List Str)} {s : Loop}
    (h : startLoop p f false records = .ok (s, rest)) :
    rest = bodyOf f records ∧ s.fnames = knownNames p f records ∧ s.p = p ∧ s.track = false := by
  unfold startLoop at h
  cases f with
  | yes =>
    cases records with
    | nil => cases h
    | cons r rs =>
      cases h
      refine ⟨by simp [bodyOf], ?_, rfl, rfl⟩
      have hh : headerName = fun n => if n = [] then none else some n := rfl
      simp only [knownNames, valsOf, List.headD_cons, hh]
      by_cases hp : p = .yes
      · simp [hp, List.map_tail]
      · simp [hp]
  | auto => cases h; exact ⟨by simp [bodyOf], rfl, rfl, rfl⟩
  | no => cases h; exact ⟨by simp [bodyOf], rfl, rfl, rfl⟩
  | given l => cases h; exact ⟨by simp [bodyOf], rfl, rfl, rfl⟩

theorem foldl_nextCols_length (P : NumParse F) : ∀ (rs : List (List Str)) (cs : List Col),
    (rs.foldl (nextCols P) cs).length = cs.length
  | [], _ => rfl
  | r :: rs, cs => by rw [List.foldl_cons, foldl_nextCols_length P rs, nextCols_length]

theorem lastRemovable_iff {e : Bool} {f : NArg} {fnames : Option (List (Option Str))} {cols : List Col} :
    lastRemovable e f fnames cols.length cols = true ↔ LastUnused e f fnames cols := by
  unfold lastRemovable LastUnused
  simp only [Bool.and_eq_true, Bool.or_eq_true, decide_eq_true_eq, List.isEmpty_iff]
  rw [List.getLast?_eq_getElem? (l := cols)]
  constructor
  · rintro ⟨⟨h1, _, h2⟩, h3⟩
    exact ⟨h1, h2, by tauto⟩
  · rintro ⟨h1, h2, h3⟩
    refine ⟨⟨h1, ?_, h2⟩, by tauto⟩
    cases cols with
    | nil => simp at h2
    | cons => simp

/-- The end of the loop. -/
theorem finish_made {P : NumParse F} {e : Bool} {f : NArg} {keepF : Option (List Nat)}
    {fnames : Option (List (Option Str))} {cols : Option (List Col)} {len : Option Nat} {inFile text : List (List Str)}
    {pn : Option (List (Option Str))} {r : Loaded F} (hc : cols = colTypes P inFile)
    (hl : keepF = none → ∀ t ∈ inFile, len = some t.length)
    (h : (if keepF = none ∧ lastRemovable e f fnames (len.getD 0) (cols.getD []) = true then do
        let data ← convertRows P (((cols.getD []).map (Col.final e)).take (len.getD 0 - 1)) (text.map List.dropLast)
        return (⟨data, pn, if f = .yes then fnames.map List.dropLast else fnames⟩ : Loaded F)
      else do
        let data ← convertRows P ((cols.getD []).map (Col.final e)) text
        return (⟨data, pn, fnames⟩ : Loaded F)) = .ok r) :
    MadeOf P e f (keepF = none) inFile text fnames r ∧ r.pnames = pn := by
  have hlast : keepF = none → (lastRemovable e f fnames (len.getD 0) (cols.getD []) = true ↔
      LastUnused e f fnames ((colTypes P inFile).getD [])) ∧
      (((colTypes P inFile).getD []) ≠ [] → len.getD 0 = ((colTypes P inFile).getD []).length) := by
    intro hk
    cases inFile with
    | nil =>
      subst hc
      simp [colTypes, lastRemovable, LastUnused]
    | cons t ts =>
      have h1 := hl hk t (by simp)
      have : len.getD 0 = (cols.getD []).length := by
        rw [h1, hc]
        simp [colTypes, foldl_nextCols_length]
      rw [this, hc]
      exact ⟨lastRemovable_iff, fun _ => rfl⟩
  by_cases hcase : keepF = none ∧ lastRemovable e f fnames (len.getD 0) (cols.getD []) = true
  · rw [if_pos hcase] at h
    obtain ⟨hk, hr⟩ := hcase
    obtain ⟨l1, l2⟩ := hlast hk
    have hu := l1.mp hr
    simp only [bind, Except.bind, pure, Except.pure] at h
    cases hd : convertRows P (((cols.getD []).map (Col.final e)).take (len.getD 0 - 1)) (text.map List.dropLast) with
    | error x => rw [hd] at h; cases h
    | ok d =>
      rw [hd] at h
      cases h
      refine ⟨⟨fun hn => absurd ⟨hk, hu⟩ hn, fun _ _ => ⟨?_, rfl⟩⟩, rfl⟩
      rw [← hd, hc, List.dropLast_eq_take, List.length_map, l2]
      intro he
      rw [LastUnused, he] at hu
      simp at hu
  · rw [if_neg hcase] at h
    simp only [bind, Except.bind, pure, Except.pure] at h
    cases hd : convertRows P ((cols.getD []).map (Col.final e)) text with
    | error x => rw [hd] at h; cases h
    | ok d =>
      rw [hd] at h
      cases h
      refine ⟨⟨fun _ => ⟨by rw [← hc]; exact hd, rfl⟩, ?_⟩, rfl⟩
      intro hk hu
      exact absurd ⟨hk, (hlast hk).1.mpr hu⟩ hcase

/-! ## C84 -/

theorem keptNames_ok {p : NArg} {R : List (List Str)} {ids : List KId} {ip : List Nat} {ext : List (Option Str)}
    {pn : Option (List (Option Str))} (hk : PointsKept p R ids ip) (hext : ext.length = ids.length)
    (hyes : p = .yes → ∀ (k m : Nat), ip[k]? = some m → ext[k]? = some (nameAt p ids.length R m))
    (hgiv : ∀ l, p = .given l → ids.length < l.length → ∀ m < R.length, m < l.length)
    (h : keptPointNames p ext ids.length (some ids) = .ok pn) : NamesKept p R ids.length ip pn := by
  refine ⟨?_, ?_, ?_, ?_⟩
  · intro hp
    subst hp
    cases h
    refine ⟨ext, rfl, hext, ?_⟩
    intro k m row hkm hrow
    rw [hyes rfl k m hkm]
    simp [nameAt, hrow, nameOf]
  · intro l hp hne hl
    subst hp
    simp only [keptPointNames] at h
    rw [if_neg hne, if_pos hl.symm] at h
    cases h
    rfl
  · intro l hp hne hl
    subst hp
    simp only [keptPointNames] at h
    rw [if_neg hne, if_neg (fun he => hl he.symm)] at h
    cases hpk : pickNames l ids with
    | error e => rw [hpk] at h; cases h
    | ok out =>
      rw [hpk] at h
      cases h
      obtain ⟨h1, h2⟩ := pickNames_ok hpk
      refine ⟨out, rfl, h1, ?_⟩
      intro k m hkm
      have hlen := hk.stands.length_eq
      have hlt : k < ip.length := (List.getElem?_eq_some_iff.mp hkm).1
      have hid : ids[k]? = some ids[k] := List.getElem?_eq_getElem (by omega)
      have hst : StandsFor R.length (nameAt (.given l) ids.length R) ids[k] m := by
        have := List.forall₂_iff_get.mp hk.stands |>.2 k (by omega) hlt
        have he : ip[k] = m := (List.getElem?_eq_some_iff.mp hkm).2
        simpa [he] using this
      obtain ⟨g1, g2⟩ := h2 k _ hid
      cases hc : ids[k] with
      | int i =>
        rw [hc] at hst g2
        obtain ⟨_, rfl⟩ := hst
        have hg := g2 m rfl
        refine ⟨?_, hg⟩
        have : k < out.length := by omega
        rw [List.getElem?_eq_getElem this] at hg
        exact (List.getElem?_eq_some_iff.mp hg.symm).1
      | str s =>
        rw [hc] at hst g1
        obtain ⟨hm, hn⟩ := hst
        rw [nameAt, List.getElem?_eq_getElem hm] at hn
        simp only [Option.bind_some, nameOf] at hn
        by_cases hl2 : ids.length < l.length
        · rw [if_pos hl2] at hn
          have hml := hgiv l rfl hl2 m hm
          refine ⟨hml, ?_⟩
          rw [g1 s rfl, ← hn, List.getElem?_eq_getElem hml]
          simp [List.getElem?_eq_getElem hml]
        · rw [if_neg hl2] at hn; cases hn
  · rintro (hp | hp | hp) <;> subst hp
    · cases h; rfl
    · cases h; rfl
    · simp only [keptPointNames, if_true] at h
      cases h; rfl

/-- **C84 (keepPoints and keepFeatures of a csv file).**  If a csv file is loaded with a list of points to keep (and a
list of features to keep, or all), then every member of the list stands for exactly one point of the file and no two for
the same one, the features likewise, and the points loaded are the kept ones in the order of the list, each with the
values of the kept features in the order of their list; the types of the features are found from the kept values only
(in the order of the file); the names follow the points and features.  (Except when the names of points in the file
are only guessed, `track`.) -/
theorem C84_keep_points {P : NumParse F} {p f : NArg} {ids : List KId} {keepF : Option (List KId)} {e : Bool}
    {records : List (List Str)} {r : Loaded F} (h : loadRecords P p f false (some ids) keepF e records = .ok r) :
    ∃ (ip : List Nat) (jf : Option (List Nat)) (text : List (List Str)) (inFile : List (Nat × List Str))
      (fnames : Option (List (Option Str))),
      PointsKept p (bodyOf f records) ids ip ∧ FeaturesKept f (knownNames p f records) keepF jf fnames ∧
      text.length = ids.length ∧
      (∀ (k m : Nat) (row : List Str), ip[k]? = some m → (bodyOf f records)[m]? = some row →
        ∃ t, text[k]? = some t ∧ TextOf jf (valsOf p row) t) ∧
      inFile.Perm (ip.zip text) ∧ inFile.Pairwise (fun a b => a.1 < b.1) ∧
      MadeOf P e f (keepF = none) (inFile.map Prod.snd) text fnames r ∧
      NamesKept p (bodyOf f records) ids.length ip r.pnames := by
  simp only [loadRecords, bind, Except.bind] at h
  cases hs : startLoop p f false records with
  | error x => rw [hs] at h; cases h
  | ok st =>
  obtain ⟨s0, rest⟩ := st
  rw [hs] at h
  dsimp only at h
  obtain ⟨rfl, b2, b3, b4⟩ := startLoop_ok hs
  cases hkf : keepFeats f s0.fnames keepF with
  | error x => rw [hkf] at h; cases h
  | ok kf =>
  obtain ⟨jf, fnames, val⟩ := kf
  rw [hkf] at h
  dsimp only at h
  have hF := keepFeats_ok hkf
  rw [b2] at hF
  cases hcp : checkPoints s0.p (some ids) with
  | error x => rw [hcp] at h; cases h
  | ok _ =>
  rw [hcp] at h
  dsimp only at h
  have hnd : ids.Nodup := by
    simp only [checkPoints, checkDup, bind, Except.bind] at hcp
    by_contra hno
    rw [if_neg hno] at hcp
    cases hcp
  set R := bodyOf f records with hR
  have I0 : Inv P p fnames ids jf R (KLoop.start s0 (some ids) fnames val) 0 [] :=
    ⟨b3, b4, rfl, rfl, rfl, by simp [KLoop.start, emptyPlaces], by simp [KLoop.start, emptyPlaces], by simp,
      by intro m row hm; omega, .nil, by simp, rfl, fun _ => rfl⟩
  cases hrows : KLoop.rows P (some ids) jf (KLoop.start s0 (some ids) fnames val) 0 R with
  | error x => rw [hrows] at h; cases h
  | ok s =>
  rw [hrows] at h
  dsimp only at h
  obtain ⟨hs', I⟩ := keepRows_ok R I0 (by simp) hrows
  rw [Nat.zero_add] at I
  simp only [KLoop.finish, bind, Except.bind, I.strack, Bool.false_eq_true, if_false, I.sp] at h
  by_cases hfull : fullList p (some ids) R.length = true
  · rw [if_pos hfull] at h; cases h
  rw [if_neg hfull] at h
  by_cases hloc : notLocated (some ids) s.located = true
  · rw [if_pos hloc] at h; cases h
  rw [if_neg hloc] at h
  have hloc' : ids.length = s.located.length := by simpa [notLocated] using hloc
  cases har : allRows s.data with
  | error x => rw [har] at h; cases h
  | ok text =>
  rw [har] at h
  dsimp only at h
  cases hpn : keptPointNames p s.extracted s.data.length (some ids) with
  | error x => rw [hpn] at h; cases h
  | ok pn =>
  rw [hpn] at h
  dsimp only at h
  have hdata := allRows_ok har
  obtain ⟨ip, k1, k2, k3, k4, k5, k6, k7, k8⟩ := located_once hnd I hdata hloc'
  have hiplen : ip.length = ids.length := k1.stands.length_eq.symm
  have hnone : (jf = none) = (keepF = none) := by
    cases hF <;> simp
  obtain ⟨m1, m2⟩ := finish_made (inFile := hs'.map Hit.kept) (keepF := jf) (text := text) (pn := pn) (len := s.firstLen)
    (fnames := s.fnames) (f := f) (e := e) I.cols
    (by intro hk t ht; obtain ⟨x, hx, rfl⟩ := List.mem_map.mp ht; exact I.flen hk x hx) h
  rw [I.sfn, hnone] at m1
  refine ⟨ip, jf, text, hs'.map (fun x => (x.m, x.kept)), fnames, k1, hF, k2, k3, ?_, ?_, ?_, ?_⟩
  · have hlen : hs'.length = ids.length := by rw [hloc', I.located, List.length_map]
    have hn : (hs'.map (fun x => (x.m, x.kept))).Nodup := by
      refine List.Nodup.of_map Prod.fst ?_
      rw [List.map_map]
      exact k6.nodup_iff.mpr k1.distinct
    refine (hn.subperm ?_).perm_of_length_le ?_
    · intro y hy
      obtain ⟨x, hx, rfl⟩ := List.mem_map.mp hy
      obtain ⟨k, e1, e2⟩ := k8 x hx
      refine List.mem_of_getElem? (i := k) ?_
      rw [List.getElem?_zip_eq_some]
      exact ⟨e1, e2⟩
    · rw [List.length_zip, List.length_map]; omega
  · rw [List.pairwise_map]; exact I.order
  · rw [List.map_map]; exact m1
  · rw [m2]
    rw [I.dlen] at hpn
    exact keptNames_ok k1 I.elen k4 k5 hpn

/-- The state of the loop after the rows `done` when all points are kept. -/
structure InvAll (P : NumParse F) (p : NArg) (fnames : Option (List (Option Str))) (kF : Option (List Nat)) (s : KLoop)
    (done kept : List (List Str)) : Prop where
  sp : s.p = p
  strack : s.track = false
  sfn : s.fnames = fnames
  cols : s.cols = colTypes P kept
  data : s.data = kept.map some
  text : List.Forall₂ (fun row t => TextOf kF (valsOf p row) t) done kept
  flen : kF = none → ∀ t ∈ kept, s.firstLen = some t.length
  names : p = .yes → s.extracted = done.map (fun row => some (row.headD []))

theorem allRow_ok {P : NumParse F} {p : NArg} {fnames : Option (List (Option Str))} {kF : Option (List Nat)}
    {s s' : KLoop} {done kept : List (List Str)} {i : Nat} {row : List Str} (I : InvAll P p fnames kF s done kept)
    (h : s.row P none kF i row = .ok s') : ∃ t, InvAll P p fnames kF s' (done ++ [row]) (kept ++ [t]) := by
  have hname : ∀ {x}, s.takeName 3 i row = .ok x → x.1 = s ∧ x.2.2 = valsOf p row ∧
      (p = .yes → x.2.1 = some (row.headD [])) := by
    intro x hx
    unfold KLoop.takeName KLoop.named at hx
    rw [I.sp, I.strack] at hx
    by_cases hy : p = .yes
    · subst hy
      cases hx
      exact ⟨rfl, rfl, fun _ => rfl⟩
    · have : (decide (p = .yes) || false) = false := by simp [hy]
      rw [this] at hx
      simp only [Bool.false_eq_true, if_false, bind, Except.bind, pure, Except.pure] at hx
      cases hg : givenName p 3 i with
      | error e => rw [hg] at hx; cases hx
      | ok n =>
        rw [hg] at hx
        cases hx
        exact ⟨rfl, by simp [valsOf, hy], fun h => absurd h hy⟩
  unfold KLoop.row at h
  simp only [Option.map_none, Option.getD_none, bind, Except.bind] at h
  cases ht : s.takeName 3 i row with
  | error e => rw [ht] at h; cases h
  | ok x =>
  rw [ht] at h
  obtain ⟨x1, nm, vals⟩ := x
  obtain ⟨rfl, h2, h3⟩ := hname ht
  dsimp only at h h2 h3
  subst h2
  by_cases hbad : x1.validated = false ∧ tooLarge kF (valsOf p row).length = true
  · rw [if_pos hbad] at h; cases h
  rw [if_neg hbad] at h
  simp only [isConflict, isUsed, Bool.false_eq_true, if_false, if_true] at h
  unfold KLoop.use at h
  by_cases hff : x1.firstLen.isSome ∧ x1.firstLen ≠ some (valsOf p row).length
  · rw [if_pos hff] at h; cases h
  rw [if_neg hff] at h
  by_cases hfl : x1.validated = false ∧ (kF.map List.length) = some (valsOf p row).length
  · rw [if_pos hfl] at h; cases h
  rw [if_neg hfl] at h
  simp only [bind, Except.bind, pure, Except.pure] at h
  cases hk : keptVals kF (valsOf p row) with
  | error e => rw [hk] at h; cases h
  | ok t =>
  rw [hk] at h
  simp only [KLoop.place] at h
  cases h
  refine ⟨t, I.sp, I.strack, I.sfn, ?_, ?_, ?_, ?_, ?_⟩
  · show some (trackCols P x1.cols t) = _
    rw [I.cols]
    exact (colTypes_append P _ _).symm
  · show x1.data ++ [some t] = _
    rw [I.data]; simp
  · exact List.rel_append I.text (.cons (keptVals_ok hk) .nil)
  · intro hkn y hy
    subst hkn
    cases hk
    show some (valsOf p row).length = _
    rcases List.mem_append.mp hy with hy | hy
    · have hfx := I.flen rfl y hy
      by_contra hne
      apply hff
      rw [hfx]
      refine ⟨rfl, ?_⟩
      intro he
      exact hne he.symm
    · rw [List.mem_singleton] at hy
      subst hy
      rfl
  · intro hy
    dsimp only
    have : KLoop.named { x1 with firstLen := some (valsOf p row).length, validated := true, cols := some (trackCols P x1.cols t) } = true := by
      have hsp : x1.p = p := I.sp
      simp [KLoop.named, hsp, hy]
    rw [if_pos this, I.names hy, h3 hy]
    simp

theorem allRowsLoop_ok {P : NumParse F} {p : NArg} {fnames : Option (List (Option Str))} {kF : Option (List Nat)} :
    ∀ (rs : List (List Str)) {s s' : KLoop} {done kept : List (List Str)} {i : Nat}, InvAll P p fnames kF s done kept →
    KLoop.rows P none kF s i rs = .ok s' → ∃ kept', InvAll P p fnames kF s' (done ++ rs) kept'
  | [], s, s', done, kept, i, I, h => by
    cases h
    exact ⟨kept, by simpa using I⟩
  | r :: rs, s, s', done, kept, i, I, h => by
    simp only [KLoop.rows, bind, Except.bind] at h
    cases h1 : s.row P none kF i r with
    | error e => rw [h1] at h; cases h
    | ok s1 =>
      rw [h1] at h
      obtain ⟨t, I1⟩ := allRow_ok I h1
      obtain ⟨kept', I'⟩ := allRowsLoop_ok rs I1 h
      exact ⟨kept', by simpa using I'⟩

theorem allRows_inv {d : List (List Str)} {rows : List (List Str)} (h : allRows (d.map some) = .ok rows) : rows = d := by
  have := allRows_ok h
  exact ((List.map_injective_iff.mpr (fun _ _ h => Option.some.inj h)) this).symm

/-- **C84 (keepFeatures of a csv file, all points).**  Every point of the file is loaded, in the order of the file, with
the values of the kept features in the order of their list, and the names follow. -/
theorem C84_keep_features {P : NumParse F} {p f : NArg} {keepF : Option (List KId)} {e : Bool}
    {records : List (List Str)} {r : Loaded F} (h : loadRecords P p f false none keepF e records = .ok r) :
    ∃ (jf : Option (List Nat)) (text : List (List Str)) (fnames : Option (List (Option Str))),
      FeaturesKept f (knownNames p f records) keepF jf fnames ∧
      List.Forall₂ (fun row t => TextOf jf (valsOf p row) t) (bodyOf f records) text ∧
      MadeOf P e f (keepF = none) text text fnames r ∧
      (p = .yes → r.pnames = some ((bodyOf f records).map (fun row => some (row.headD [])))) ∧
      (∀ l, p = .given l → l ≠ [] → l.length = (bodyOf f records).length → r.pnames = some l) ∧
      (p = .no ∨ p = .auto ∨ p = .given [] → r.pnames = none) := by
  simp only [loadRecords, bind, Except.bind] at h
  cases hs : startLoop p f false records with
  | error x => rw [hs] at h; cases h
  | ok st =>
  obtain ⟨s0, rest⟩ := st
  rw [hs] at h
  dsimp only at h
  obtain ⟨rfl, b2, b3, b4⟩ := startLoop_ok hs
  cases hkf : keepFeats f s0.fnames keepF with
  | error x => rw [hkf] at h; cases h
  | ok kf =>
  obtain ⟨jf, fnames, val⟩ := kf
  rw [hkf] at h
  simp only [checkPoints] at h
  have hF := keepFeats_ok hkf
  rw [b2] at hF
  have I0 : InvAll P p fnames jf (KLoop.start s0 none fnames val) [] [] :=
    ⟨b3, b4, rfl, rfl, rfl, .nil, by simp, fun _ => rfl⟩
  cases hrows : KLoop.rows P none jf (KLoop.start s0 none fnames val) 0 (bodyOf f records) with
  | error x => rw [hrows] at h; cases h
  | ok s =>
  rw [hrows] at h
  obtain ⟨kept, I⟩ := allRowsLoop_ok _ I0 hrows
  rw [List.nil_append] at I
  have hlen : s.data.length = (bodyOf f records).length := by
    rw [I.data, List.length_map]; exact I.text.length_eq.symm
  simp only [KLoop.finish, bind, Except.bind, I.strack, Bool.false_eq_true, if_false, I.sp, notLocated] at h
  have hfull : fullList p none (bodyOf f records).length = false := by
    unfold fullList
    split
    · rename_i heq; cases heq
    · rfl
  rw [hfull] at h
  simp only [Bool.false_eq_true, if_false] at h
  cases har : allRows s.data with
  | error x => rw [har] at h; cases h
  | ok text =>
  rw [har] at h
  dsimp only at h
  cases hpn : keptPointNames p s.extracted s.data.length none with
  | error x => rw [hpn] at h; cases h
  | ok pn =>
  rw [hpn] at h
  dsimp only at h
  rw [I.data] at har
  have htext := allRows_inv har
  subst htext
  obtain ⟨m1, m2⟩ := finish_made (inFile := text) (keepF := jf) (text := text) (pn := pn) (len := s.firstLen)
    (fnames := s.fnames) (f := f) (e := e) I.cols I.flen h
  have hnone : (jf = none) = (keepF = none) := by
    cases hF <;> simp
  rw [I.sfn, hnone] at m1
  refine ⟨jf, text, fnames, hF, I.text, m1, ?_, ?_, ?_⟩
  · intro hp
    subst hp
    cases hpn
    rw [m2, I.names rfl]
  · intro l hp hne hl
    subst hp
    simp only [keptPointNames] at hpn
    rw [if_neg hne, hlen, if_pos hl.symm] at hpn
    cases hpn
    exact m2
  · rw [m2]
    rintro (hp | hp | hp) <;> subst hp
    · cases hpn; rfl
    · cases hpn; rfl
    · simp only [keptPointNames, if_true] at hpn
      cases hpn; rfl

/-- The two models of the loop agree. -/
structure Same (k : KLoop) (s : Loop) : Prop where
  p : k.p = s.p
  track : k.track = s.track
  possible : k.possible = s.possible
  fnames : k.fnames = s.fnames
  firstLen : k.firstLen = s.firstLen
  extracted : k.extracted = s.extracted.map some
  data : k.data = s.data.map some
  cols : k.cols = s.cols
  validated : k.validated = true

/-- After a row the length of the rows is known. -/
def HeaderKnown (s : Loop) : Prop := s.possible ≠ [] → s.firstLen.isSome = true

theorem zipBack : ∀ (ns : List Str) (ds : List (List Str)),
    List.zipWith (fun (nm : Option Str) (r : Option (List Str)) => r.map (fun v => nm.getD [] :: v)) (ns.map some)
      (ds.map some) = (List.zipWith (fun n r => n :: r) ns ds).map some
  | [], _ => rfl
  | _ :: _, [] => rfl
  | n :: ns, d :: ds => by
    simp only [List.map_cons, List.zipWith_cons_cons, zipBack ns ds]
    rfl

theorem same_back {k : KLoop} {s : Loop} (S : Same k s) (hf : s.firstLen.isSome = true) :
    ∃ k', k.giveBack = .ok k' ∧ Same k' s.giveBack := by
  cases hn : s.firstLen with
  | none => rw [hn] at hf; cases hf
  | some n =>
    have hk : k.firstLen = some n := S.firstLen.trans hn
    unfold KLoop.giveBack
    rw [hk]
    refine ⟨_, rfl, ?_⟩
    constructor
    · rfl
    · rfl
    · exact S.possible
    · show k.fnames.map _ = s.fnames.map _
      rw [S.fnames]
    · show some (n + 1) = s.firstLen.map _
      rw [hn]; rfl
    · exact S.extracted
    · show _ ++ _ = List.map some (_ ++ _)
      rw [S.extracted, S.data, zipBack, List.map_append, List.length_map, List.map_drop]
    · exact S.cols
    · exact S.validated

theorem same_take {k : KLoop} {s : Loop} (S : Same k s) (H : HeaderKnown s) (i : Nat) (row : List Str) (ho : s.outOfNames i = false) :
    ∃ k' nm, k.takeName 3 i row = .ok (k', nm, (s.takeName row).2.2) ∧ Same k' (s.takeName row).1 ∧
      ((s.takeName row).1.named = true → nm = some (s.takeName row).2.1) := by
  unfold KLoop.takeName Loop.takeName
  have hnamed : k.named = s.named := by simp [KLoop.named, Loop.named, S.p, S.track]
  rw [hnamed]
  by_cases hn : s.named = true
  · rw [if_pos hn, if_pos hn, S.track]
    by_cases ht : s.track = true
    · rw [if_pos ht]
      simp only [ht, if_true, S.possible]
      by_cases hp : row.headD [] ∈ s.possible
      · rw [if_pos hp]
        simp only [hp, if_true]
        obtain ⟨k', h1, h2⟩ := same_back S (H (List.ne_nil_of_mem hp))
        refine ⟨k', some (row.headD []), ?_, h2, fun _ => rfl⟩
        rw [h1]
        rfl
      · rw [if_neg hp]
        simp only [hp, if_false]
        refine ⟨_, _, rfl, ?_, fun _ => rfl⟩
        exact ⟨S.p, rfl, rfl, S.fnames, S.firstLen, S.extracted, S.data, S.cols, S.validated⟩
    · simp only [ht, if_false]
      exact ⟨k, _, rfl, S, fun _ => rfl⟩
  · have hn' : s.named = false := by simpa using hn
    rw [hn']
    simp only [Bool.false_eq_true, if_false, bind, Except.bind, pure, Except.pure]
    have hg : ∃ n, givenName k.p 3 i = .ok n := by
      rw [S.p]
      have ht : s.track = false := by
        simp [Loop.named] at hn'; exact hn'.2
      unfold Loop.outOfNames at ho
      unfold givenName
      cases hp : s.p with
      | given l =>
        rw [hp] at ho
        dsimp only at ho ⊢
        by_cases hl : 3 < l.length
        · rw [if_pos hl]
          have : i < l.length := by
            simp [ht] at ho
            exact ho hl
          rw [List.getElem?_eq_getElem this]
          exact ⟨_, rfl⟩
        · rw [if_neg hl]; exact ⟨_, rfl⟩
      | _ => exact ⟨_, rfl⟩
    obtain ⟨n, hg⟩ := hg
    rw [hg]
    exact ⟨k, n, rfl, S, fun h => by rw [hn'] at h; cases h⟩

theorem same_row {P : NumParse F} {k : KLoop} {s : Loop} (S : Same k s) (H : HeaderKnown s) (i : Nat) (row : List Str) :
    (∃ e, k.row P none none i row = .error e ∧ s.row P i row = .error e) ∨
    ∃ k' s', k.row P none none i row = .ok k' ∧ s.row P i row = .ok s' ∧ Same k' s' ∧ HeaderKnown s' := by
  unfold KLoop.row Loop.row
  simp only [Option.map_none, Option.getD_none, bind, Except.bind]
  by_cases ho : s.outOfNames i = true
  · left
    rw [if_pos ho]
    refine ⟨.IndexError, ?_, rfl⟩
    unfold Loop.outOfNames at ho
    cases hp : s.p with
    | given l =>
      rw [hp] at ho
      simp only [Bool.and_eq_true, Bool.not_eq_true', decide_eq_true_eq] at ho
      obtain ⟨ht, h3, hle⟩ := ho
      have hkn : k.named = false := by simp [KLoop.named, S.p, S.track, hp, ht]
      unfold KLoop.takeName
      rw [hkn]
      have hi : l[i]? = none := by rw [List.getElem?_eq_none_iff]; exact hle
      simp only [Bool.false_eq_true, if_false, bind, Except.bind, S.p, hp, givenName, h3, if_true, hi]
    | auto => rw [hp] at ho; cases ho
    | yes => rw [hp] at ho; cases ho
    | no => rw [hp] at ho; cases ho
  · have ho' : s.outOfNames i = false := by simpa using ho
    rw [ho']
    obtain ⟨k', nm, h1, h2, h3⟩ := same_take S H i row ho'
    rw [h1]
    simp only [Bool.false_eq_true, if_false]
    have hv : ¬ (k'.validated = false ∧ tooLarge none (s.takeName row).2.2.length = true) := by
      intro h; rw [h2.validated] at h; cases h.1
    rw [if_neg hv]
    simp only [isConflict, isUsed, Bool.false_eq_true, if_false, if_true]
    unfold KLoop.use Loop.keep
    dsimp only
    rw [h2.firstLen]
    by_cases hf : (s.takeName row).1.firstLen.isSome = true ∧ (s.takeName row).1.firstLen ≠ some (s.takeName row).2.2.length
    · left
      rw [if_pos hf, if_pos hf]
      exact ⟨_, rfl, rfl⟩
    · right
      rw [if_neg hf, if_neg hf]
      have hv2 : ¬ (k'.validated = false ∧ (Option.map List.length (none : Option (List Nat))) = some (s.takeName row).2.2.length) := by
        intro h; cases h.2
      rw [if_neg hv2]
      refine ⟨_, _, rfl, rfl, ?_, fun _ => rfl⟩
      have hnm : KLoop.named { k' with firstLen := some (s.takeName row).2.2.length, validated := true, cols := some (trackCols P k'.cols (s.takeName row).2.2) } = (s.takeName row).1.named := by
        simp [KLoop.named, Loop.named, h2.p, h2.track]
      constructor
      · exact h2.p
      · exact h2.track
      · exact h2.possible
      · exact h2.fnames
      · rfl
      · dsimp only [KLoop.place]
        rw [hnm]
        by_cases hn : (s.takeName row).1.named = true
        · rw [if_pos hn, if_pos hn, h2.extracted, h3 hn]; simp
        · rw [if_neg hn, if_neg hn, h2.extracted]
      · show k'.data ++ _ = List.map some (_ ++ _)
        rw [h2.data]; simp
      · show some (trackCols P k'.cols _) = some _
        rw [h2.cols]
      · rfl

theorem same_rows {P : NumParse F} : ∀ (rs : List (List Str)) {k : KLoop} {s : Loop} (i : Nat), Same k s → HeaderKnown s →
    (∃ e, KLoop.rows P none none k i rs = .error e ∧ Loop.rows P s i rs = .error e) ∨
    ∃ k' s', KLoop.rows P none none k i rs = .ok k' ∧ Loop.rows P s i rs = .ok s' ∧ Same k' s'
  | [], k, s, i, S, _ => .inr ⟨k, s, rfl, rfl, S⟩
  | r :: rs, k, s, i, S, H => by
    simp only [KLoop.rows, Loop.rows, bind, Except.bind]
    rcases same_row (P := P) S H i r with ⟨e, h1, h2⟩ | ⟨k', s', h1, h2, S', H'⟩
    · rw [h1, h2]; exact .inl ⟨e, rfl, rfl⟩
    · rw [h1, h2]
      exact same_rows rs (i + 1) S' H'

theorem allRows_map : ∀ (d : List (List Str)), allRows (d.map some) = .ok d
  | [] => rfl
  | r :: d => by simp only [List.map_cons, allRows, allRows_map d, bind, Except.bind, pure, Except.pure]

theorem loadRecords_all (P : NumParse F) (p f : NArg) (track : Bool) (e : Bool) (records : List (List Str)) :
    loadRecords P p f track none none e records =
      (startLoop p f track records).bind (fun start => (Loop.rows P start.1 0 start.2).bind
        (fun s => s.finish P e f)) := by
  simp only [loadRecords, bind, Except.bind]
  cases hs : startLoop p f track records with
  | error x => rfl
  | ok st =>
    obtain ⟨s0, rest⟩ := st
    simp only [keepFeats, checkPoints]
    have S0 : Same (KLoop.start s0 none s0.fnames true) s0 ∧ HeaderKnown s0 := by
      have : s0.possible = [] ∧ s0.extracted = [] ∧ s0.data = [] ∧ s0.cols = none := by
        unfold startLoop at hs
        cases f with
        | yes =>
          cases records with
          | nil => cases hs
          | cons r rs => cases hs; exact ⟨rfl, rfl, rfl, rfl⟩
        | _ => cases hs; exact ⟨rfl, rfl, rfl, rfl⟩
      obtain ⟨a1, a2, a3, a4⟩ := this
      exact ⟨⟨rfl, rfl, a1.symm, rfl, rfl, by rw [a2]; rfl, by rw [a3]; rfl, a4.symm, rfl⟩, fun h => absurd a1 h⟩
    rcases same_rows (P := P) rest 0 S0.1 S0.2 with ⟨x, h1, h2⟩ | ⟨k', s', h1, h2, S⟩
    · rw [h1, h2]
    · rw [h1, h2]
      dsimp only
      unfold KLoop.finish Loop.finish
      have hp : (if k'.track = true then f else k'.p) = if s'.track = true then f else s'.p := by rw [S.track, S.p]
      rw [hp]
      generalize (if s'.track = true then f else s'.p) = q
      have hfull : ∀ n, fullList q none n = false := by
        intro n
        unfold fullList
        split
        · rename_i heq; cases heq
        · rfl
      have hpn : keptPointNames q k'.extracted k'.data.length none = .ok (finalPointNames q s'.extracted s'.data.length) := by
        unfold keptPointNames finalPointNames
        rw [S.extracted, S.data, List.length_map]
        cases q with
        | given l =>
          dsimp only
          by_cases hl : l = []
          · rw [if_pos hl, if_pos hl]
          · rw [if_neg hl, if_neg hl]
            split <;> rfl
        | _ => rfl
      simp only [hfull, notLocated, Bool.false_eq_true, if_false, hpn, bind, Except.bind, pure, Except.pure, true_and]
      rw [S.data, allRows_map, S.cols, S.firstLen, S.fnames]

/-- **C84 (keeping everything).**  Without keep lists it is the loading of a csv file (C37, C60 ...). -/
theorem C84_keep_all (P : NumParse F) (p f : NArg) (e : Bool) (text : Str) :
    loadCsvKeep P p f none none e text = loadCsv P p f e text := by
  unfold loadCsvKeep loadCsv
  simp only [bind, Except.bind]
  cases ha : advancePastComments (splitLines (universal false text)) with
  | error x => rfl
  | ok lines =>
    dsimp only
    rw [loadRecords_all]
    rfl

/-- **C84 violated (two unnamed features).**  Two features without a name in the header cannot both be kept: the second
one is taken for the first one. -/
theorem C84_unnamed_violated :
    loadCsvKeep demo .no .yes none (some [.int 1, .int 2]) false "a,,\n1,2,3\n4,5,6\n".toList =
      .error .InvalidArgumentValue := by decide +kernel

/-- **C84 violated (index one too large).**  The index after the last feature is not recognised as too large: an
`IndexError` instead of the documented exception, which a larger index gives. -/
theorem C84_index_violated :
    loadCsvKeep demo .no .no none (some [.int 2]) false "1,2\n3,4\n".toList = .error .IndexError ∧
    loadCsvKeep demo .no .no none (some [.int 3]) false "1,2\n3,4\n".toList = .error .InvalidArgumentValue := by
  decide +kernel

/-- **C84 violated (all features, by their index).**  A list of all features, only to change their order, is refused;
with the names of the features it is accepted. -/
theorem C84_reorder_violated :
    loadCsvKeep demo .no .no none (some [.int 1, .int 0]) false "1,2\n3,4\n".toList = .error .InvalidArgumentValue ∧
    loadCsvKeep demo .no .yes none (some [.int 1, .int 0]) false "a,b\n1,2\n3,4\n".toList =
      .ok ⟨[[.int 2, .int 1], [.int 4, .int 3]], none, some [some ['b'], some ['a']]⟩ := by
  decide +kernel

/-- **C84 violated (a name that stands for two features).**  The first one is taken, without a complaint. -/
theorem C84_ambiguous_violated :
    loadCsvKeep demo .no .yes none (some [.str ['a']]) false "a,a\n1,2\n3,4\n".toList =
      .ok ⟨[[.int 1], [.int 3]], none, some [some ['a']]⟩ := by decide +kernel

/-- **C84 violated (point names which turn out to be values).**  The header begins with an empty name, so the first
values are taken for point names until one of them is repeated; then the kept features are off by one: only `b` is to
be kept, but the third point has the value of `a`, and one value less than the others. -/
theorem C84_guessed_names_violated :
    loadCsvKeep demo .auto .auto none (some [.str ['b']]) false ",a,b\n1,1,2\n2,3,4\n1,5,6\n".toList =
      .ok ⟨[[.int 1, .str ['2']], [.int 2, .str ['4']], [.int 5]], none, some [none, some ['b']]⟩ := by decide +kernel

/-- Points by name and by index out of order, features by name and index. -/
example : loadCsvKeep demo .yes .yes (some [.str ['z'], .int 0]) (some [.int 2, .str ['b']]) false
    "pointNames,a,b,c\nx,1,2,s\ny,4,5,t\nz,7,8,u\n".toList =
    .ok ⟨[[.str ['u'], .int 8], [.str ['s'], .int 2]], some [some ['z'], some ['x']],
      some [some ['c'], some ['b']]⟩ := by decide +kernel

/-- Given names: of all points, and of the kept points only. -/
example : loadCsvKeep demo (.given [some ['x'], some ['y'], some ['z']]) .auto (some [.str ['z'], .int 0]) (some [.int 1])
      false "1,2\n3,4\n5,6\n".toList = .ok ⟨[[.int 6], [.int 2]], some [some ['z'], some ['x']], none⟩ ∧
    loadCsvKeep demo (.given [some ['x'], some ['y']]) .auto (some [.int 2, .int 0]) none false
      "1,2\n3,4\n5,6\n".toList = .ok ⟨[[.int 5, .int 6], [.int 1, .int 2]], some [some ['x'], some ['y']], none⟩ := by
  decide +kernel

/-- The types are those of the kept points: the text is not kept. -/
example : loadCsvKeep demo .no .no (some [.int 2, .int 0]) none false "1\nx\n3\n".toList =
    .ok ⟨[[.int 3], [.int 1]], none, none⟩ := by decide +kernel

/-- A point given by its name and its index, and a point that is not there. -/
example : loadCsvKeep demo .yes .no (some [.str ['y'], .int 1]) none false "x,1\ny,2\n".toList =
      .error .InvalidArgumentValue ∧
    loadCsvKeep demo .yes .no (some [.str ['q']]) none false "x,1\ny,2\n".toList = .error .InvalidArgumentValue := by
  decide +kernel

end Nimble.Csv
