import Verif.Model.FeatureReport
import Verif.Props.Create
import Verif.Props.Flatten
import Verif.Props.Keep
import Verif.Props.Sources
import Mathlib.Data.List.Forall2

/-!
# C101: `features.report` shows, for every feature, the statistics its columns are named after
-/

namespace Nimble
namespace FeatureReport

variable {V : Type}

/-! ## Specification -/

/-- The statistic called `s` of the elements `ft`. -/
def valueOf (C : Calc V) (ft : List V) (s : String) : Res V :=
  if s = "Q1" then (C.quartiles ft).map (fun q => q.1)
  else if s = "median" then (C.quartiles ft).map (fun q => q.2.1)
  else if s = "Q3" then (C.quartiles ft).map (fun q => q.2.2)
  else C.stat s ft

/-- The exceptions a Python `except ValueError` stops: `ValueError` and nimble's classes derived from it. -/
def ValueErrors : List Err := [.ValueError, .InvalidArgumentValue, .InvalidArgumentValueCombination, .FileFormatException]

/-- What the report shows for a statistic: its value, nan if it raises a `ValueError`. -/
def Shows (C : Calc V) (ft : List V) (s : String) (v : V) : Prop :=
  valueOf C ft s = .ok v ∨ ((∃ e ∈ ValueErrors, valueOf C ft s = .error e) ∧ v = C.nan)

/-- What the report shows for an extra function. -/
def ShowsExtra (ft : List V) (f : Extra V) (v : V) : Prop := f.fn ft = .ok v

/-- The row of feature `i`. -/
def RowOf (C : Calc V) (o : Obj V) (ss : List String) (fs : List (Extra V)) (i : Nat) (r : List V) : Prop :=
  ∃ a b, r = C.num i :: (a ++ b) ∧ List.Forall₂ (Shows C (o.vector .feature i)) ss a ∧
    List.Forall₂ (ShowsExtra (o.vector .feature i)) fs b

/-- The name of column `k`: a name that occurs more than once is numbered by its earlier occurrences. -/
def label (names : List String) (k : Nat) (v : String) : String :=
  if 1 < names.count v then v ++ " (" ++ toString ((names.take k).count v) ++ ")" else v

/-- No name looks like the numbered form of a repeated name. -/
def Plain (names : List String) : Prop :=
  ∀ v ∈ names, 1 < names.count v → ∀ d : Nat, (v ++ " (" ++ toString d ++ ")") ∉ names

/-- The ten basic statistics. -/
def basics : List String :=
  ["mean", "mode", "minimum", "Q1", "median", "Q3", "maximum", "uniqueCount", "count", "standardDeviation"]

/-- The statistics `ss` asked for: all, none, or the given ones, which must be basic ones. -/
def Requested : Basic → List String → Prop
  | .yes, ss => ss = basics
  | .no, ss => ss = []
  | .list l, ss => (∀ s ∈ l, s ∈ basics) ∧ ss = l

theorem stats_iff (basic : Basic) (ss : List String) : stats basic = .ok ss ↔ Requested basic ss := by
  cases basic with
  | yes => simp only [stats, Requested, Except.ok.injEq]; exact eq_comm
  | no => simp only [stats, Requested, Except.ok.injEq]; exact eq_comm
  | list l =>
    simp only [stats, Requested]
    have e : allow = basics := rfl
    by_cases h : ∀ s ∈ l, s ∈ basics
    · rw [if_neg (by simp only [List.any_eq_true, decide_eq_true_eq, not_exists, not_and, e]; exact fun x hx hc => hc (h x hx))]
      simp only [Except.ok.injEq]
      exact ⟨fun x => ⟨h, x.symm⟩, fun x => x.2.symm⟩
    · rw [if_pos (by
        simp only [List.any_eq_true, decide_eq_true_eq, e]
        by_contra hc
        exact h (fun x hx => by by_contra hn; exact hc ⟨x, hx, hn⟩))]
      simp [h]

/-! ## Names -/

theorem numbered_eq (v : String) (d : Nat) : numbered v d = v ++ " (" ++ toString d ++ ")" := by
  show v ++ (" (" ++ (Nat.repr d ++ ")")) = v ++ " (" ++ Nat.repr d ++ ")"
  simp [String.append_assoc]

theorem sep_inj {c : Char} {a b d e : List Char} (hd : c ∉ d) (he : c ∉ e)
    (h : a ++ c :: d = b ++ c :: e) : a = b ∧ d = e := by
  rcases List.append_eq_append_iff.1 h with ⟨x, h1, h2⟩ | ⟨x, h1, h2⟩
  · cases x with
    | nil => simp at h1 h2; exact ⟨h1.symm, h2⟩
    | cons c' x =>
      simp only [List.cons_append, List.cons.injEq] at h2
      exact absurd (by rw [h2.2]; simp) hd
  · cases x with
    | nil => simp at h1 h2; exact ⟨h1, h2.symm⟩
    | cons c' x =>
      simp only [List.cons_append, List.cons.injEq] at h2
      exact absurd (by rw [h2.2]; simp) he

theorem numbered_inj {v w : String} {i j : Nat}
    (h : (v ++ " (" ++ toString i ++ ")" : String) = w ++ " (" ++ toString j ++ ")") : v = w ∧ i = j := by
  have h' := congrArg String.toList h
  simp only [String.toList_append] at h'
  have e1 : " (".toList = [' ', '('] := rfl
  have e2 : ")".toList = [')'] := rfl
  rw [e1, e2] at h'
  have h2 := (List.append_inj' h' rfl).1
  have hno : ∀ n : Nat, '(' ∉ (toString n : String).toList := by
    intro n hm
    have := toString_nat_chars hm
    exact absurd this (by decide)
  have h3 : (v.toList ++ [' ']) ++ '(' :: (toString i : String).toList =
      (w.toList ++ [' ']) ++ '(' :: (toString j : String).toList := by simpa using h2
  obtain ⟨h4, h5⟩ := sep_inj (hno i) (hno j) h3
  have h6 := (List.append_inj' h4 rfl).1
  exact ⟨String.toList_inj.1 h6, toString_nat_inj (String.toList_inj.1 h5)⟩

theorem counter_foldl (names : List String) (d : PyDict String Nat) (v : String) :
    (PyDict.get? (names.foldl (fun d v => PyDict.set d v ((PyDict.get? d v).getD 0 + 1)) d) v).getD 0 =
      (PyDict.get? d v).getD 0 + names.count v := by
  induction names generalizing d with
  | nil => simp
  | cons x names ih =>
    rw [List.foldl_cons, ih, PyDict.get?_set, List.count_cons]
    by_cases hx : x = v
    · subst hx; simp; omega
    · simp [hx]

theorem counter_get (names : List String) (v : String) :
    (PyDict.get? (counter names) v).getD 0 = names.count v := by
  unfold counter
  rw [counter_foldl]
  simp [PyDict.get?]

theorem editLoop_get (cnt : PyDict String Nat) (rem : PyDict String Nat) (vs : List String)
    (h1 : ∀ v, vs.count v ≤ (PyDict.get? rem v).getD 0)
    (h2 : ∀ v, (PyDict.get? rem v).getD 0 ≤ (PyDict.get? cnt v).getD 0) (k : Nat) :
    (editLoop cnt rem vs)[k]? = (vs[k]?).map (fun v =>
      if 1 < (PyDict.get? cnt v).getD 0 then
        numbered v ((PyDict.get? cnt v).getD 0 - (PyDict.get? rem v).getD 0 + (vs.take k).count v) else v) := by
  induction vs generalizing rem k with
  | nil => simp [editLoop]
  | cons x vs ih =>
    have hx1 := h1 x
    have hx2 := h2 x
    rw [List.count_cons_self] at hx1
    unfold editLoop
    by_cases hx : 1 < (PyDict.get? cnt x).getD 0
    · rw [if_pos hx]
      cases k with
      | zero => simp [hx]
      | succ k =>
        simp only [List.getElem?_cons_succ, List.take_succ_cons]
        rw [ih]
        · cases hk : vs[k]? with
          | none => rfl
          | some v =>
            simp only [Option.map_some]
            rw [PyDict.get?_set, List.count_cons]
            by_cases hxv : x = v
            · subst hxv
              simp only [if_true, Option.getD_some, beq_self_eq_true]
              rw [if_pos hx, if_pos hx]
              congr 2
              omega
            · simp [hxv]
        · intro v
          have := h1 v
          rw [List.count_cons] at this
          rw [PyDict.get?_set]
          by_cases hxv : x = v
          · subst hxv; simp at this ⊢; omega
          · simp [hxv] at this ⊢; exact this
        · intro v
          rw [PyDict.get?_set]
          by_cases hxv : x = v
          · subst hxv; simp; omega
          · simpa [hxv] using h2 v
    · rw [if_neg hx]
      cases k with
      | zero => simp [hx]
      | succ k =>
        simp only [List.getElem?_cons_succ, List.take_succ_cons]
        rw [ih]
        · cases hk : vs[k]? with
          | none => rfl
          | some v =>
            simp only [Option.map_some]
            rw [List.count_cons]
            by_cases hxv : x = v
            · subst hxv
              rw [if_neg hx, if_neg hx]
            · simp [hxv]
        · intro v
          have := h1 v
          rw [List.count_cons] at this
          omega
        · exact h2

theorem editNames_get (names : List String) (k : Nat) :
    (editNames names)[k]? = (names[k]?).map (label names k) := by
  unfold editNames
  by_cases h : names.dedup.length ≠ names.length
  · rw [if_pos h, editLoop_get _ _ _ (fun v => by rw [counter_get]) (fun v => Nat.le_refl _)]
    cases names[k]? with
    | none => rfl
    | some v =>
      simp only [Option.map_some, label, counter_get, Nat.sub_self, Nat.zero_add, numbered_eq]
  · rw [if_neg h]
    have hn : names.Nodup := by
      have := (List.dedup_sublist names).eq_of_length (by simpa using h)
      rw [← this]; exact List.nodup_dedup names
    cases names[k]? with
    | none => rfl
    | some v =>
      have := List.nodup_iff_count_le_one.1 hn v
      simp only [Option.map_some, label]
      rw [if_neg (by omega)]

theorem length_editNames (names : List String) : (editNames names).length = names.length := by
  apply Nat.le_antisymm
  · by_contra hc
    have h1 : names.length < (editNames names).length := by omega
    have := editNames_get names names.length
    rw [List.getElem?_eq_getElem h1] at this
    simp at this
  · by_contra hc
    have h1 : (editNames names).length < names.length := by omega
    have := editNames_get names (editNames names).length
    rw [List.getElem?_eq_getElem h1] at this
    simp at this

theorem count_take_lt {names : List String} {i j : Nat} {v : String} (hij : i < j) (hi : names[i]? = some v)
    (hj : j ≤ names.length) : (names.take i).count v < (names.take j).count v := by
  have h1 : (names.take (i + 1)).count v = (names.take i).count v + 1 := by
    rw [List.take_succ, hi]
    simp
  have h2 : (names.take (i + 1)).count v ≤ (names.take j).count v := by
    apply List.Sublist.count_le
    have : names.take (i + 1) = (names.take j).take (i + 1) := by rw [List.take_take]; congr 1; omega
    rw [this]
    exact List.take_sublist _ _
  omega

/-- **C101** (names): the columns of a report have distinct names, unless a name already looks like the numbered form
of a repeated one. -/
theorem C101_names_distinct_partial {names : List String} (h : Plain names) : (editNames names).Nodup := by
  rw [List.nodup_iff_injective_getElem]
  rintro ⟨i, hi⟩ ⟨j, hj⟩ hij
  simp only at hij
  rw [length_editNames] at hi hj
  have gi := editNames_get names i
  have gj := editNames_get names j
  rw [List.getElem?_eq_getElem (by rw [length_editNames]; exact hi), List.getElem?_eq_getElem hi] at gi
  rw [List.getElem?_eq_getElem (by rw [length_editNames]; exact hj), List.getElem?_eq_getElem hj] at gj
  simp only [Option.map_some, Option.some.injEq] at gi gj
  rw [gi, gj] at hij
  have hcount : ∀ (a b : Nat) (ha : a < names.length) (hb : b < names.length), a < b → names[a] = names[b] →
      1 < names.count names[a] := by
    intro a b ha hb hab he
    have h1 := count_take_lt (v := names[a]) hab (List.getElem?_eq_getElem ha) (by omega : b ≤ names.length)
    have h2 := count_take_lt (names := names) (v := names[a]) (i := b) (j := names.length) hb
      (by rw [List.getElem?_eq_getElem hb, he]) (Nat.le_refl _)
    rw [List.take_length] at h2
    omega
  have hpos : ∀ (a b : Nat) (ha : a < names.length) (hb : b < names.length), names[a] = names[b] →
      (names.take a).count names[a] = (names.take b).count names[a] → a = b := by
    intro a b ha hb he hc
    rcases Nat.lt_trichotomy a b with hl | hl | hl
    · have := count_take_lt (v := names[a]) hl (List.getElem?_eq_getElem ha) (by omega)
      omega
    · exact hl
    · have := count_take_lt (v := names[a]) hl (by rw [List.getElem?_eq_getElem hb, he]) (by omega)
      omega
  have key : i = j := by
    unfold label at hij
    by_cases c1 : 1 < names.count names[i]
    · by_cases c2 : 1 < names.count names[j]
      · rw [if_pos c1, if_pos c2] at hij
        obtain ⟨h1, h2⟩ := numbered_inj hij
        rw [← h1] at h2
        exact hpos i j hi hj h1 h2
      · rw [if_pos c1, if_neg c2] at hij
        exact absurd (by rw [hij]; exact List.getElem_mem hj) (h _ (List.getElem_mem hi) c1 _)
    · by_cases c2 : 1 < names.count names[j]
      · rw [if_neg c1, if_pos c2] at hij
        exact absurd (by rw [← hij]; exact List.getElem_mem hi) (h _ (List.getElem_mem hj) c2 _)
      · rw [if_neg c1, if_neg c2] at hij
        rcases Nat.lt_trichotomy i j with hl | hl | hl
        · exact absurd (hcount i j hi hj hl hij) c1
        · exact hl
        · exact absurd (hcount j i hj hi hl hij.symm) c2
  simp [key]

/-! ## Rows -/

theorem tryStat_spec (C : Calc V) (ft : List V) (cache : Option (V × V × V))
    (hc : ∀ q, cache = some q → C.quartiles ft = .ok q) (s : String) :
    (∃ c v, tryStat C ft cache s = .ok (c, v) ∧ valueOf C ft s = .ok v ∧
      ∀ q, c = some q → C.quartiles ft = .ok q) ∨
    (∃ e, tryStat C ft cache s = .error e ∧ valueOf C ft s = .error e) := by
  have hq : ∀ (k : Fin 3) (g : V × V × V → V), quartilePos s = some k → (∀ q, pickQ q k = g q) →
      valueOf C ft s = (C.quartiles ft).map g →
      ((∃ c v, tryStat C ft cache s = .ok (c, v) ∧ valueOf C ft s = .ok v ∧
        ∀ q, c = some q → C.quartiles ft = .ok q) ∨
      (∃ e, tryStat C ft cache s = .error e ∧ valueOf C ft s = .error e)) := by
    intro k g hk hg hv
    unfold tryStat
    rw [hk]
    dsimp only
    cases cache with
    | some q =>
      refine .inl ⟨some q, pickQ q k, rfl, ?_, hc⟩
      rw [hv, hc q rfl, hg]; rfl
    | none =>
      cases hq : C.quartiles ft with
      | error e => exact .inr ⟨e, rfl, by rw [hv, hq]; rfl⟩
      | ok q => exact .inl ⟨some q, pickQ q k, rfl, by rw [hv, hq, hg]; rfl, by rintro _ ⟨⟩; rfl⟩
  by_cases h1 : s = "Q1"
  · exact hq 0 (fun q => q.1) (by simp [quartilePos, h1]) (fun q => by simp [pickQ]) (by simp [valueOf, h1])
  · by_cases h2 : s = "median"
    · exact hq 1 (fun q => q.2.1) (by subst h2; decide) (fun q => by simp [pickQ]) (by subst h2; simp [valueOf])
    · by_cases h3 : s = "Q3"
      · exact hq 2 (fun q => q.2.2) (by subst h3; decide) (fun q => by simp [pickQ]) (by subst h3; simp [valueOf])
      · have hv : valueOf C ft s = C.stat s ft := by simp [valueOf, h1, h2, h3]
        have hp : quartilePos s = none := by simp [quartilePos, h1, h2, h3]
        unfold tryStat
        rw [hp, hv]
        dsimp only
        cases C.stat s ft with
        | error e => exact .inr ⟨e, rfl, rfl⟩
        | ok v => exact .inl ⟨cache, v, rfl, rfl, hc⟩

theorem isValueError_iff (e : Err) : isValueError e = true ↔ e ∈ ValueErrors := by
  cases e <;> decide

theorem statCells_spec (C : Calc V) (ft : List V) {ss : List String} :
    ∀ {cache : Option (V × V × V)} {a : List V}, (∀ q, cache = some q → C.quartiles ft = .ok q) →
      statCells C ft cache ss = .ok a → List.Forall₂ (Shows C ft) ss a := by
  induction ss with
  | nil => intro cache a _ h; simp only [statCells] at h; cases h; exact .nil
  | cons s ss ih =>
    intro cache a hc h
    simp only [statCells, bind, Except.bind, pure, Except.pure] at h
    rcases tryStat_spec C ft cache hc s with ⟨c, v, e1, e2, e3⟩ | ⟨e, e1, e2⟩
    · rw [e1] at h
      simp only [catchStat] at h
      cases hr : statCells C ft c ss with
      | error e => rw [hr] at h; simp at h
      | ok rest =>
        rw [hr] at h
        simp only [Except.ok.injEq] at h
        subst h
        exact .cons (.inl e2) (ih e3 hr)
    · rw [e1] at h
      by_cases hve : e ∈ ValueErrors
      · simp only [catchStat, (isValueError_iff e).2 hve, if_true] at h
        cases hr : statCells C ft cache ss with
        | error e => rw [hr] at h; simp at h
        | ok rest =>
          rw [hr] at h
          simp only [Except.ok.injEq] at h
          subst h
          exact .cons (.inr ⟨⟨e, hve, e2⟩, rfl⟩) (ih hc hr)
      · simp only [catchStat, (isValueError_iff e).not.2 hve] at h
        cases h

theorem statCells_runs (C : Calc V) (ft : List V) {ss : List String}
    (hok : ∀ s ∈ ss, ∃ v, Shows C ft s v) :
    ∀ {cache : Option (V × V × V)}, (∀ q, cache = some q → C.quartiles ft = .ok q) →
      ∃ a, statCells C ft cache ss = .ok a := by
  induction ss with
  | nil => intro cache _; exact ⟨[], rfl⟩
  | cons s ss ih =>
    intro cache hc
    simp only [statCells, bind, Except.bind, pure, Except.pure]
    rcases tryStat_spec C ft cache hc s with ⟨c, v, e1, e2, e3⟩ | ⟨e, e1, e2⟩
    · rw [e1]
      simp only [catchStat]
      obtain ⟨rest, hr⟩ := ih (fun x hx => hok x (by simp [hx])) e3
      rw [hr]; exact ⟨_, rfl⟩
    · rw [e1]
      obtain ⟨v, hv⟩ := hok s (by simp)
      have hve : e ∈ ValueErrors := by
        rcases hv with hv | ⟨⟨e', he, hv⟩, -⟩
        · rw [e2] at hv; cases hv
        · rw [e2] at hv; cases hv; exact he
      simp only [catchStat, (isValueError_iff e).2 hve, if_true]
      obtain ⟨rest, hr⟩ := ih (fun x hx => hok x (by simp [hx])) hc
      rw [hr]; exact ⟨_, rfl⟩

theorem extraCells_spec (ft : List V) {fs : List (Extra V)} {b : List V} (h : extraCells ft fs = .ok b) :
    List.Forall₂ (ShowsExtra ft) fs b := by
  induction fs generalizing b with
  | nil => simp only [extraCells] at h; cases h; exact .nil
  | cons f fs ih =>
    simp only [extraCells, bind, Except.bind, pure, Except.pure] at h
    cases hf : f.fn ft with
    | error e => rw [hf] at h; simp at h
    | ok v =>
      rw [hf] at h
      dsimp only at h
      cases hr : extraCells ft fs with
      | error e => rw [hr] at h; simp at h
      | ok rest =>
        rw [hr] at h
        simp only [Except.ok.injEq] at h
        subst h
        exact .cons hf (ih hr)

theorem extraCells_runs (ft : List V) {fs : List (Extra V)} (h : ∀ f ∈ fs, ∃ v, ShowsExtra ft f v) :
    ∃ b, extraCells ft fs = .ok b := by
  induction fs with
  | nil => exact ⟨[], rfl⟩
  | cons f fs ih =>
    obtain ⟨v, hv⟩ := h f (by simp)
    obtain ⟨b, hb⟩ := ih (fun x hx => h x (by simp [hx]))
    have hv' : f.fn ft = .ok v := hv
    exact ⟨v :: b, by simp [extraCells, hv', hb, bind, Except.bind, pure, Except.pure]⟩

theorem row_spec {C : Calc V} {o : Obj V} {ss : List String} {fs : List (Extra V)} {i : Nat} {r : List V}
    (h : row C ss fs i (o.vector .feature i) = .ok r) : RowOf C o ss fs i r := by
  simp only [row, bind, Except.bind, pure, Except.pure] at h
  cases ha : statCells C (o.vector .feature i) none ss with
  | error e => rw [ha] at h; simp at h
  | ok a =>
    rw [ha] at h
    dsimp only at h
    cases hb : extraCells (o.vector .feature i) fs with
    | error e => rw [hb] at h; simp at h
    | ok b =>
      rw [hb] at h
      simp only [Except.ok.injEq] at h
      subst h
      exact ⟨a, b, rfl, statCells_spec C _ (by simp) ha, extraCells_spec _ hb⟩

theorem RowOf.length {C : Calc V} {o : Obj V} {ss : List String} {fs : List (Extra V)} {i : Nat} {r : List V}
    (h : RowOf C o ss fs i r) : r.length = (rawNames ss fs).length := by
  obtain ⟨a, b, rfl, h1, h2⟩ := h
  simp [rawNames, h1.length_eq, h2.length_eq]

theorem rows_spec {C : Calc V} {o : Obj V} {ss : List String} {fs : List (Extra V)} {is : List Nat}
    {rs : List (List V)} (h : rows C ss fs o is = .ok rs) : List.Forall₂ (RowOf C o ss fs) is rs := by
  induction is generalizing rs with
  | nil => simp only [rows] at h; cases h; exact .nil
  | cons i is ih =>
    simp only [rows, bind, Except.bind, pure, Except.pure] at h
    cases hr : row C ss fs i (o.vector .feature i) with
    | error e => rw [hr] at h; simp at h
    | ok r =>
      rw [hr] at h
      dsimp only at h
      cases hrs : rows C ss fs o is with
      | error e => rw [hrs] at h; simp at h
      | ok rest =>
        rw [hrs] at h
        simp only [Except.ok.injEq] at h
        subst h
        exact .cons (row_spec hr) (ih hrs)

theorem rows_runs {C : Calc V} {o : Obj V} {ss : List String} {fs : List (Extra V)} {is : List Nat}
    (h1 : ∀ i ∈ is, ∀ s ∈ ss, ∃ v, Shows C (o.vector .feature i) s v)
    (h2 : ∀ i ∈ is, ∀ f ∈ fs, ∃ v, ShowsExtra (o.vector .feature i) f v) :
    ∃ rs, rows C ss fs o is = .ok rs := by
  induction is with
  | nil => exact ⟨[], rfl⟩
  | cons i is ih =>
    obtain ⟨a, ha⟩ := statCells_runs C (o.vector .feature i) (h1 i (by simp)) (cache := none) (by simp)
    obtain ⟨b, hb⟩ := extraCells_runs (o.vector .feature i) (h2 i (by simp))
    obtain ⟨rs, hrs⟩ := ih (fun j hj => h1 j (by simp [hj])) (fun j hj => h2 j (by simp [hj]))
    have hr : row C ss fs i (o.vector .feature i) = .ok (C.num i :: (a ++ b)) := by
      simp [row, ha, hb, bind, Except.bind, pure, Except.pure]
    exact ⟨_ :: rs, by simp [rows, hr, hrs, bind, Except.bind, pure, Except.pure]; rfl⟩

/-! ## The report -/

/-- The report on object `o`: one point per feature of `o`, under the name of the feature; its elements as in `RowOf`,
followed by the columns `tail`; the columns named as in `label`. -/
structure Reports (C : Calc V) (o : Obj V) (ss : List String) (fs : List (Extra V)) (tail : Nat → List V)
    (tailNames : List String) (r : Obj V) : Prop where
  wf : r.WF
  points : r.pts.len = o.fts.len
  pointNames : r.pts.getNames = o.fts.getNames
  featureNames : r.fts.getNames = ((rawNames ss fs).zipIdx.map (fun p => label (rawNames ss fs) p.2 p.1) ++ tailNames).map some
  rows : ∀ i, i < o.fts.len → ∃ x, RowOf C o ss fs i x ∧ r.vector .point i = x ++ tail i

theorem editNames_labels (names : List String) :
    editNames names = names.zipIdx.map (fun p => label names p.2 p.1) := by
  apply List.ext_getElem?
  intro k
  rw [editNames_get, List.getElem?_map, List.getElem?_zipIdx]
  cases names[k]? <;> simp

theorem makeFrom_inv {rs : List (List V)} {n m : Nat} {pn fn : Option (List (Option String))} {r : Obj V}
    (hr : rs.length = n) (hc : ∀ x ∈ rs, x.length = m) (hf : ∀ l, fn = some l → 0 < l.length)
    (hfn : fn ≠ none) (h : Obj.makeFrom rs 0 pn fn = .ok r) :
    0 < n ∧ Obj.make rs n m pn fn = .ok r := by
  cases rs with
  | nil =>
    exfalso
    cases fn with
    | none => exact hfn rfl
    | some l =>
      have := make_inv (nF := 0) (nP := 0) (data := ([] : List (List V))) h rfl (by simp)
      have h2 := this.2.2.2.2.2.1.1
      have := hf l rfl
      omega
  | cons x xs =>
    refine ⟨by simp at hr; omega, ?_⟩
    have e : Obj.makeFrom (x :: xs) 0 pn fn = Obj.make (x :: xs) (x :: xs).length x.length pn fn := rfl
    rw [e, hr, hc x (by simp)] at h
    exact h

theorem forall2_get {α β : Type} {R : α → β → Prop} {l : List α} {m : List β} (h : List.Forall₂ R l m) {i : Nat}
    {a : α} (ha : l[i]? = some a) : ∃ b, m[i]? = some b ∧ R a b := by
  induction h generalizing i with
  | nil => simp at ha
  | cons h hs ih =>
    cases i with
    | zero => simp at ha; subst ha; exact ⟨_, rfl, h⟩
    | succ i => simpa using ih (by simpa using ha)

theorem forall2_mem {α β : Type} {R : α → β → Prop} {l : List α} {m : List β} (h : List.Forall₂ R l m) {b : β}
    (hb : b ∈ m) : ∃ a ∈ l, R a b := by
  induction h with
  | nil => simp at hb
  | cons h hs ih =>
    rcases List.mem_cons.1 hb with rfl | hb
    · exact ⟨_, by simp, h⟩
    · obtain ⟨a, ha, hr⟩ := ih hb
      exact ⟨a, by simp [ha], hr⟩

theorem report_parts {C : Calc V} {o : Obj V} {basic : Basic} {fs : List (Extra V)} {types : Option (List String)}
    {r : Obj V} (h : report C o basic fs types = .ok r) :
    ∃ ss rs base, stats basic = .ok ss ∧ rows C ss fs o (List.range o.fts.len) = .ok rs ∧
      Obj.makeFrom rs 0 o.fts.getNamesNoGen (some ((editNames (rawNames ss fs)).map some)) = .ok base ∧
      ((types = none ∧ r = base) ∨ ∃ ts, types = some ts ∧
        Obj.makeFrom (withTypes C ts rs (editNames (rawNames ss fs))).1 0 o.fts.getNamesNoGen
          (some ((withTypes C ts rs (editNames (rawNames ss fs))).2.map some)) = .ok r) := by
  simp only [report, bind, Except.bind, pure, Except.pure] at h
  cases h1 : stats basic with
  | error e => rw [h1] at h; simp at h
  | ok ss =>
    rw [h1] at h
    dsimp only at h
    cases h2 : rows C ss fs o (List.range o.fts.len) with
    | error e => rw [h2] at h; simp at h
    | ok rs =>
      rw [h2] at h
      dsimp only at h
      cases h3 : Obj.makeFrom rs 0 o.fts.getNamesNoGen (some ((editNames (rawNames ss fs)).map some)) with
      | error e => rw [h3] at h; simp at h
      | ok base =>
        rw [h3] at h
        dsimp only at h
        cases types with
        | none => cases h; exact ⟨ss, rs, r, rfl, h2, h3, .inl ⟨rfl, rfl⟩⟩
        | some ts => exact ⟨ss, rs, base, rfl, h2, h3, .inr ⟨ts, rfl, h⟩⟩

theorem reports_of_make {C : Calc V} {o : Obj V} {ss : List String} {fs : List (Extra V)} {rs : List (List V)}
    (hrs : List.Forall₂ (RowOf C o ss fs) (List.range o.fts.len) rs) {tail : Nat → List V} {tailNames : List String}
    (ht : ∀ i, i < o.fts.len → (tail i).length = tailNames.length) {rs' : List (List V)}
    (hrs' : rs'.length = rs.length)
    (hget : ∀ (i : Nat) (x : List V), rs[i]? = some x → rs'[i]? = some (x ++ tail i)) {r : Obj V}
    (hm : Obj.makeFrom rs' 0 o.fts.getNamesNoGen
      (some ((editNames (rawNames ss fs) ++ tailNames).map some)) = .ok r) :
    0 < o.fts.len ∧ Reports C o ss fs tail tailNames r := by
  have hlen : rs'.length = o.fts.len := by rw [hrs', ← hrs.length_eq]; simp
  have hcols : ∀ x ∈ rs', x.length = (editNames (rawNames ss fs) ++ tailNames).length := by
    intro x hx
    obtain ⟨i, hi, rfl⟩ := List.mem_iff_getElem.1 hx
    have hi' : i < o.fts.len := by omega
    obtain ⟨y, hy, hrow⟩ := forall2_get hrs (i := i) (a := i) (by simp [hi'])
    have := hget i y hy
    rw [List.getElem?_eq_getElem hi] at this
    simp only [Option.some.injEq] at this
    rw [this, List.length_append, List.length_append, length_editNames, hrow.length, ht i hi']
  obtain ⟨hpos, hmk⟩ := makeFrom_inv hlen hcols (by
    intro l hl; simp only [Option.some.injEq] at hl; subst hl
    simp [length_editNames, rawNames]) (by simp) hm
  obtain ⟨w1, w2, w3, w4, -, -, w7, w8, -⟩ := make_inv hmk hlen hcols
  refine ⟨hpos, w1, w3, ?_, ?_, ?_⟩
  · rw [w7, Sources.getNames_noGen]
  · rw [w8, editNames_labels]; rfl
  · intro i hi
    obtain ⟨y, hy, hrow⟩ := forall2_get hrs (i := i) (a := i) (by simp [hi])
    refine ⟨y, hrow, ?_⟩
    show (r.data[i]?).getD [] = _
    rw [w2, hget i y hy]; rfl

/-- **C101**: a report that is made holds one point for every feature, under its name and in its order; point `i` holds
the index, the value of every requested statistic (nan if it raised a `ValueError`) and of every extra function on the
elements of feature `i`, in columns named after them. -/
theorem C101_report {C : Calc V} {o r : Obj V} {basic : Basic} {fs : List (Extra V)}
    (h : report C o basic fs none = .ok r) :
    ∃ ss, Requested basic ss ∧ 0 < o.fts.len ∧ Reports C o ss fs (fun _ => []) [] r := by
  obtain ⟨ss, rs, base, h1, h2, h3, h4⟩ := report_parts h
  rcases h4 with ⟨-, rfl⟩ | ⟨ts, hc, -⟩
  · refine ⟨ss, (stats_iff _ _).1 h1, reports_of_make (rows_spec h2) (by simp) rfl (by intro i x hx; simpa using hx) ?_⟩
    simpa using h3
  · simp at hc

theorem dataType_fresh {basic : Basic} {ss : List String} {fs : List (Extra V)} (hs : Requested basic ss)
    (hn : ∀ f ∈ fs, f.name ≠ "dataType") : "dataType" ∉ editNames (rawNames ss fs) := by
  intro hm
  obtain ⟨k, hk, e⟩ := List.mem_iff_getElem.1 hm
  have h1 := editNames_get (rawNames ss fs) k
  rw [List.getElem?_eq_getElem hk, e] at h1
  have hb : ∀ s ∈ ss, s ∈ basics := by
    cases basic with
    | yes => simp only [Requested] at hs; subst hs; exact fun s h => h
    | no => simp only [Requested] at hs; subst hs; simp
    | list l => simp only [Requested] at hs; rw [hs.2]; exact hs.1
  cases hv : (rawNames ss fs)[k]? with
  | none => rw [hv] at h1; simp at h1
  | some v =>
    rw [hv] at h1
    simp only [Option.map_some, Option.some.injEq, label] at h1
    split at h1
    · have := congrArg (fun s : String => ')' ∈ s.toList) h1
      simp only [String.toList_append] at this
      revert this
      simp
    · have hmem := List.mem_of_getElem? hv
      rw [← h1] at hmem
      simp only [rawNames, List.mem_cons, List.mem_append, List.mem_map] at hmem
      rcases hmem with hc | hc | ⟨f, hf, hc⟩
      · exact absurd hc (by decide)
      · exact absurd (hb _ hc) (by decide)
      · exact hn f hf hc

/-- **C101** (dtypes): with `dtypes=True` the report has the further column `dataType` holding the type of each feature,
unless an extra function is called `dataType`. -/
theorem C101_dtypes {C : Calc V} {o r : Obj V} {basic : Basic} {fs : List (Extra V)} {ts : List String}
    (hts : ts.length = o.fts.len) (hn : ∀ f ∈ fs, f.name ≠ "dataType")
    (h : report C o basic fs (some ts) = .ok r) :
    ∃ ss, Requested basic ss ∧ 0 < o.fts.len ∧
      Reports C o ss fs (fun i => [C.text (ts[i]?.getD "")]) ["dataType"] r := by
  obtain ⟨ss, rs, base, h1, h2, h3, h4⟩ := report_parts h
  rcases h4 with ⟨hc, -⟩ | ⟨ts', hc, hm⟩
  · simp at hc
  · cases hc
    unfold withTypes at hm
    rw [if_neg (dataType_fresh ((stats_iff _ _).1 h1) hn)] at hm
    have hl : rs.length = ts.length := by rw [hts, ← (rows_spec h2).length_eq]; simp
    refine ⟨ss, (stats_iff _ _).1 h1, reports_of_make (rows_spec h2) (by simp) ?_ ?_ hm⟩
    · simp [hl]
    · intro i x hx
      obtain ⟨hi, rfl⟩ := List.getElem?_eq_some_iff.1 hx
      have hi' : i < ts.length := by omega
      simp [List.getElem?_zipWith, hi, hi']

/-- **C101** (what is accepted): the report is made if there is a feature, the statistics are among the allowed ones,
nothing but `ValueError` is raised by a statistic and nothing by an extra function, and no name looks like the
numbered form of a repeated one.

Missing: names of that form (`C101_names_violated`). -/
theorem C101_accepted_partial {C : Calc V} {o : Obj V} (ho : o.WF) {basic : Basic} {fs : List (Extra V)}
    {ss : List String} (hs' : Requested basic ss) (hpos : 0 < o.fts.len)
    (h1 : ∀ i, i < o.fts.len → ∀ s ∈ ss, ∃ v, Shows C (o.vector .feature i) s v)
    (h2 : ∀ i, i < o.fts.len → ∀ f ∈ fs, ∃ v, ShowsExtra (o.vector .feature i) f v)
    (hn : Plain (rawNames ss fs)) : ∃ r, report C o basic fs none = .ok r := by
  have hs := (stats_iff _ _).2 hs'
  obtain ⟨rs, hrs⟩ := rows_runs (C := C) (o := o) (is := List.range o.fts.len)
    (fun i hi => h1 i (List.mem_range.1 hi)) (fun i hi => h2 i (List.mem_range.1 hi))
  have hspec := rows_spec hrs
  have hlen : rs.length = o.fts.len := by rw [← hspec.length_eq]; simp
  have hcols : ∀ x ∈ rs, x.length = (rawNames ss fs).length := by
    intro x hx
    obtain ⟨i, -, hr⟩ := forall2_mem hspec hx
    exact hr.length
  have hgood : goodNames (rawNames ss fs).length (some ((editNames (rawNames ss fs)).map some)) := by
    refine ⟨by rw [List.length_map, length_editNames], ?_⟩
    rw [reduceOption_map_some]
    exact C101_names_distinct_partial hn
  have hgoodp : goodNames o.fts.len o.fts.getNamesNoGen := by
    unfold AxisSt.getNamesNoGen
    cases ht : o.fts.tbl with
    | none => trivial
    | some t => exact ⟨(ho.fts t ht).length_inv, (ho.fts t ht).reduceOption_nodup⟩
  obtain ⟨r, hr⟩ := make_good (data := rs) hgoodp hgood
  have hmk : Obj.makeFrom rs 0 o.fts.getNamesNoGen (some ((editNames (rawNames ss fs)).map some)) = .ok r := by
    cases rs with
    | nil => simp at hlen; omega
    | cons x xs =>
      have e : Obj.makeFrom (x :: xs) 0 o.fts.getNamesNoGen (some ((editNames (rawNames ss fs)).map some)) =
        Obj.make (x :: xs) (x :: xs).length x.length o.fts.getNamesNoGen
          (some ((editNames (rawNames ss fs)).map some)) := rfl
      rw [e, hlen, hcols x (by simp)]
      exact hr
  exact ⟨r, by simp [report, hs, hrs, hmk, bind, Except.bind, pure, Except.pure]⟩

/-! ## Examples -/

/-- Statistics on natural numbers: the number of elements, the first element; quartiles of an empty feature raise. -/
def exCalc : Calc Nat :=
  ⟨fun s ft => if s = "count" then .ok ft.length else if s = "mean" then .ok ft.sum else .error .ValueError,
    fun ft => match ft with | a :: b :: c :: _ => .ok (a, b, c) | _ => .error .ValueError, id, 999, fun s => s.length⟩

/-- Three points and two features, the second one named. -/
def exObj : Obj Nat := ⟨[[1, 4], [2, 5], [3, 6]], ⟨3, none⟩, ⟨2, some ⟨[("b", 1)], [none, some "b"]⟩⟩⟩

/-- A report with a repeated name: an extra function that is also called `mean`. -/
example : (report exCalc exObj (.list ["mean", "median", "mode"]) [⟨"mean", fun ft => .ok ft.length⟩] none).map
    (fun r => (r.data, r.pts.getNames, r.fts.getNames)) =
    .ok ([[0, 6, 2, 999, 3], [1, 15, 5, 999, 3]], [none, some "b"],
      [some "index", some "mean (0)", some "median", some "mode", some "mean (1)"]) := by
  decide +kernel

/-- A report with types. -/
example : (report exCalc exObj .no [⟨"size", fun ft => .ok ft.length⟩] (some ["int", "float"])).map
    (fun r => (r.data, r.pts.getNames, r.fts.getNames)) =
    .ok ([[0, 3, 3], [1, 3, 5]], [none, some "b"], [some "index", some "size", some "dataType"]) := by
  decide +kernel

example : Plain (rawNames ["mean", "median", "mode"] [⟨"mean", fun ft => .ok ft.length⟩] (V := Nat)) := by
  intro v hv hc d hm
  have hlen : ∀ x ∈ rawNames ["mean", "median", "mode"] [⟨"mean", fun ft => .ok ft.length⟩] (V := Nat),
    ')' ∉ x.toList := by decide
  apply hlen _ hm
  rw [String.toList_append]
  simp

/-- C101 (distinct names) is false in general: with two functions called `f` and one called `f (0)` the names clash and
no report is made. -/
theorem C101_names_violated :
    ∃ (o : Obj Nat) (fs : List (Extra Nat)), 0 < o.fts.len ∧
      (∀ i, i < o.fts.len → ∀ f ∈ fs, ∃ v, ShowsExtra (o.vector .feature i) f v) ∧
      report exCalc o .no fs none = .error .InvalidArgumentValue := by
  refine ⟨exObj, [⟨"f", fun _ => .ok 1⟩, ⟨"f", fun _ => .ok 2⟩, ⟨"f (0)", fun _ => .ok 3⟩], by decide, ?_, by
    have : (report exCalc exObj .no [⟨"f", fun _ => .ok 1⟩, ⟨"f", fun _ => .ok 2⟩, ⟨"f (0)", fun _ => .ok 3⟩] none).map
      (fun _ => ()) = .error .InvalidArgumentValue := by decide +kernel
    cases h : report exCalc exObj .no [⟨"f", fun _ => .ok 1⟩, ⟨"f", fun _ => .ok 2⟩, ⟨"f (0)", fun _ => .ok 3⟩] none with
    | error e => rw [h] at this; simpa [Except.map] using this
    | ok r => rw [h] at this; simp [Except.map] at this⟩
  intro i _ f hf
  simp only [List.mem_cons, List.not_mem_nil, or_false] at hf
  rcases hf with rfl | rfl | rfl <;> exact ⟨_, rfl⟩

/-- C101: an object without features has no report, not even an empty one. -/
theorem C101_no_features_refused (C : Calc V) {o : Obj V} (h : o.fts.len = 0) (basic : Basic) (fs : List (Extra V))
    (types : Option (List String)) (r : Obj V) : report C o basic fs types ≠ .ok r := by
  intro hr
  obtain ⟨ss, rs, base, h1, h2, h3, -⟩ := report_parts hr
  have := reports_of_make (rows_spec h2) (tail := fun _ => []) (tailNames := []) (by simp) rfl
    (by intro i x hx; simpa using hx) (by simpa using h3)
  omega

end FeatureReport
end Nimble
