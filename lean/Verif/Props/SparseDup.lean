import Verif.Model.SparseDup
import Verif.Lemmas.Py
import Mathlib.Tactic.Ring

/-!
# C45: removing duplicate coordinates does not change the matrix
-/

namespace Nimble
namespace SparseDup

/-! ## Specification -/

/-- The values stored at a coordinate, in order. -/
def storedAt (es : List Entry) (k : Nat × Nat) : List SVal :=
  (es.filter (fun e => decide (e.1 = k))).map Prod.snd

/-- The number a stored value stands for when it is summed. -/
def numeric (parse : String → Option Rat) : SVal → Option Rat
  | .num r => some r
  | .txt s => parse s

/-- The element a coordinate-format matrix has at a coordinate: 0 where nothing is stored, the
stored value where one is stored, the sum where several are. -/
def element (parse : String → Option Rat) (es : List Entry) (k : Nat × Nat) : SVal :=
  match storedAt es k with
  | [] => .num 0
  | [v] => v
  | vs => .num ((vs.map (fun v => (numeric parse v).getD 0)).sum)

/-- Several values stored at one coordinate that can be summed: the first is a number, the others
are numbers or text denoting a number. -/
def Summable (parse : String → Option Rat) : List SVal → Prop
  | [] => True
  | [_] => True
  | .num _ :: rest => ∀ v ∈ rest, (numeric parse v).isSome
  | .txt _ :: _ => False

/-! ## The loop -/

variable {parse : String → Option Rat}

private theorem toFloat_ok {v : SVal} {r : Rat} :
    toFloat parse v = .ok r ↔ numeric parse v = some r := by
  cases v with
  | num a => simp [toFloat, numeric]
  | txt s =>
    simp only [toFloat, numeric]
    cases parse s <;> simp

private theorem addTo_ok {old v w : SVal} :
    addTo parse old v = .ok w ↔
      ∃ a r, old = .num a ∧ numeric parse v = some r ∧ w = .num (a + r) := by
  unfold addTo
  rw [Res.bind_ok]
  constructor
  · rintro ⟨r, h1, h2⟩
    cases old with
    | num a => exact ⟨a, r, rfl, toFloat_ok.1 h1, (Except.ok.inj h2).symm⟩
    | txt s => cases h2
  · rintro ⟨a, r, rfl, h1, rfl⟩
    exact ⟨r, toFloat_ok.2 h1, rfl⟩

/-- What a cell holding `c` holds after the values `vs` were met. -/
private def after (parse : String → Option Rat) : Option SVal → List SVal → Option SVal
  | c, [] => c
  | none, v :: vs => after parse (some v) vs
  | some (.num a), v :: vs => after parse (some (.num (a + (numeric parse v).getD 0))) vs
  | some (.txt s), _ :: vs => after parse (some (.txt s)) vs

/-- The values `vs` can be met by a cell holding `c`. -/
private def Fine (parse : String → Option Rat) : Option SVal → List SVal → Prop
  | _, [] => True
  | none, v :: vs => Fine parse (some v) vs
  | some (.num a), v :: vs =>
    (numeric parse v).isSome ∧ Fine parse (some (.num (a + (numeric parse v).getD 0))) vs
  | some (.txt _), _ :: _ => False

private theorem storedAt_cons (e : Entry) (es : List Entry) (k : Nat × Nat) :
    storedAt (e :: es) k = if e.1 = k then e.2 :: storedAt es k else storedAt es k := by
  unfold storedAt
  by_cases h : e.1 = k <;> simp [h]

private theorem step_ok {st st' : St} {e : Entry} (h : step parse st e = .ok st') :
    (∀ k, PyDict.get? st'.seen k
        = after parse (PyDict.get? st.seen k) (if e.1 = k then [e.2] else [])) ∧
    (∀ k, Fine parse (PyDict.get? st.seen k) (if e.1 = k then [e.2] else [])) ∧
    (st'.duplicates = (st.duplicates || PyDict.has st.seen e.1)) ∧
    (st'.zeroInData = (st.zeroInData || decide (e.2 = .num 0))) ∧
    ((PyDict.keys st.seen).Nodup → (PyDict.keys st'.seen).Nodup) ∧
    (∀ k, k ∈ PyDict.keys st'.seen ↔ k = e.1 ∨ k ∈ PyDict.keys st.seen) := by
  unfold step at h
  cases hg : PyDict.get? st.seen e.1 with
  | none =>
    rw [hg] at h
    have h' := Except.ok.inj h
    subst h'
    refine ⟨fun k => ?_, fun k => ?_, ?_, rfl, fun hn => PyDict.nodup_set hn _ _,
      fun k => PyDict.mem_keys_set⟩
    · by_cases hk : e.1 = k
      · subst hk; simp [hg, after]
      · simp only [PyDict.get?_set, hk, if_false, after]
    · by_cases hk : e.1 = k
      · subst hk; simp [hg, Fine]
      · simp [hk, Fine]
    · simp [PyDict.has, hg]
  | some old =>
    rw [hg] at h
    simp only [] at h
    rw [Res.bind_ok] at h
    obtain ⟨w, h1, h2⟩ := h
    obtain ⟨a, r, rfl, hr, rfl⟩ := addTo_ok.1 h1
    have h' := Except.ok.inj h2
    subst h'
    refine ⟨fun k => ?_, fun k => ?_, ?_, rfl, fun hn => PyDict.nodup_set hn _ _,
      fun k => PyDict.mem_keys_set⟩
    · by_cases hk : e.1 = k
      · subst hk; simp [hg, after, hr]
      · simp only [PyDict.get?_set, hk, if_false, after]
    · by_cases hk : e.1 = k
      · subst hk; simp [hg, Fine, hr]
      · simp [hk, Fine]
    · simp [PyDict.has, hg]

private theorem step_total {st : St} {e : Entry} 
    (h : Fine parse (PyDict.get? st.seen e.1) [e.2]) : ∃ st', step parse st e = .ok st' := by
  unfold step
  cases hg : PyDict.get? st.seen e.1 with
  | none => exact ⟨_, rfl⟩
  | some old =>
    rw [hg] at h
    cases old with
    | txt s => exact absurd h (by simp [Fine])
    | num a =>
      simp only [Fine, and_true] at h
      obtain ⟨r, hr⟩ := Option.isSome_iff_exists.1 h
      have : addTo parse (.num a) e.2 = .ok (.num (a + r)) := addTo_ok.2 ⟨a, r, rfl, hr, rfl⟩
      simp only [this]
      exact ⟨_, rfl⟩

private theorem after_cons (c : Option SVal) (v : SVal) (vs : List SVal) :
    after parse c (v :: vs) = after parse (after parse c [v]) vs := by
  rcases c with _ | (a | s) <;> simp [after]

private theorem fine_cons (c : Option SVal) (v : SVal) (vs : List SVal) :
    Fine parse c (v :: vs) ↔ Fine parse c [v] ∧ Fine parse (after parse c [v]) vs := by
  rcases c with _ | (a | s) <;> simp [after, Fine]

private theorem loop_ok : ∀ {es : List Entry} {st st' : St}, loop parse st es = .ok st' →
    (∀ k, PyDict.get? st'.seen k = after parse (PyDict.get? st.seen k) (storedAt es k)) ∧
    (∀ k, Fine parse (PyDict.get? st.seen k) (storedAt es k)) ∧
    (st'.duplicates = false ↔ st.duplicates = false ∧ (es.map Prod.fst).Nodup ∧
      ∀ k ∈ es.map Prod.fst, k ∉ PyDict.keys st.seen) ∧
    (st'.zeroInData = false ↔ st.zeroInData = false ∧ ∀ e ∈ es, e.2 ≠ .num 0) ∧
    ((PyDict.keys st.seen).Nodup → (PyDict.keys st'.seen).Nodup) ∧
    (∀ k, k ∈ PyDict.keys st'.seen ↔ k ∈ es.map Prod.fst ∨ k ∈ PyDict.keys st.seen) := by
  intro es
  induction es with
  | nil =>
    intro st st' h
    have h' := Except.ok.inj h
    subst h'
    refine ⟨fun k => rfl, fun k => by simp [storedAt, Fine], ?_, ?_, id, ?_⟩ <;> simp
  | cons e es ih =>
    intro st st' h
    unfold loop at h
    rw [Res.bind_ok] at h
    obtain ⟨s1, h1, h2⟩ := h
    obtain ⟨a1, a2, a3, a4, a5, a6⟩ := step_ok h1
    obtain ⟨b1, b2, b3, b4, b5, b6⟩ := ih h2
    refine ⟨fun k => ?_, fun k => ?_, ?_, ?_, fun hn => b5 (a5 hn), fun k => ?_⟩
    · rw [b1, a1, storedAt_cons]
      by_cases hk : e.1 = k
      · simp only [hk, if_true]; rw [after_cons _ e.2 (storedAt es k)]
      · simp only [hk, if_false]; rfl
    · have hb := b2 k
      have ha := a2 k
      rw [a1] at hb
      rw [storedAt_cons]
      by_cases hk : e.1 = k
      · simp only [hk, if_true] at hb ha ⊢
        rw [fine_cons]; exact ⟨ha, hb⟩
      · simp only [hk, if_false] at hb ⊢
        exact hb
    · rw [b3, a3]
      simp only [Bool.or_eq_false_iff, List.map_cons, List.nodup_cons, List.mem_cons, a6]
      constructor
      · rintro ⟨⟨hd, hh⟩, hn, hk⟩
        have hh' : e.1 ∉ PyDict.keys st.seen := fun hm => by
          rw [PyDict.has_iff.2 hm] at hh; cases hh
        refine ⟨hd, ⟨fun hm => hk _ hm (Or.inl rfl), hn⟩, ?_⟩
        rintro k (rfl | hm)
        · exact hh'
        · exact fun h' => hk k hm (Or.inr h')
      · rintro ⟨hd, ⟨h1, hn⟩, hk⟩
        refine ⟨⟨hd, ?_⟩, hn, ?_⟩
        · have := hk e.1 (Or.inl rfl)
          rw [← PyDict.has_iff] at this
          exact Bool.eq_false_iff.2 this
        · rintro k hm (rfl | h')
          · exact h1 hm
          · exact hk k (Or.inr hm) h'
    · rw [b4, a4]
      simp only [Bool.or_eq_false_iff, decide_eq_false_iff_not, List.mem_cons, forall_eq_or_imp]
      tauto
    · rw [b6, a6]
      simp only [List.map_cons, List.mem_cons]
      tauto

private theorem loop_total : ∀ {es : List Entry} {st : St},
    (∀ k, Fine parse (PyDict.get? st.seen k) (storedAt es k)) → ∃ st', loop parse st es = .ok st' := by
  intro es
  induction es with
  | nil => intro st _; exact ⟨st, rfl⟩
  | cons e es ih =>
    intro st h
    have he := h e.1
    rw [storedAt_cons, if_pos rfl, fine_cons] at he
    obtain ⟨s1, h1⟩ := step_total he.1
    obtain ⟨a1, -, -, -, -, -⟩ := step_ok h1
    obtain ⟨s2, h2⟩ := ih (st := s1) (fun k => by
      have hk := h k
      rw [a1]
      rw [storedAt_cons] at hk
      by_cases hek : e.1 = k
      · simp only [hek, if_true] at hk ⊢
        exact ((fine_cons _ _ _).1 hk).2
      · simp only [hek, if_false] at hk ⊢
        exact hk)
    exact ⟨s2, by unfold loop; rw [h1]; exact h2⟩

private theorem after_num (a : Rat) (vs : List SVal) :
    after parse (some (.num a)) vs
      = some (.num (a + (vs.map (fun v => (numeric parse v).getD 0)).sum)) := by
  induction vs generalizing a with
  | nil => simp [after]
  | cons v vs ih =>
    simp only [after, ih, List.map_cons, List.sum_cons]
    congr 2; ring

private theorem fine_num (a : Rat) (vs : List SVal) :
    Fine parse (some (.num a)) vs ↔ ∀ v ∈ vs, (numeric parse v).isSome := by
  induction vs generalizing a with
  | nil => simp [Fine]
  | cons v vs ih => simp [Fine, ih]

private theorem fine_none (vs : List SVal) : Fine parse none vs ↔ Summable parse vs := by
  rcases vs with _ | ⟨v, _ | ⟨w, vs⟩⟩
  · simp [Fine, Summable]
  · simp [Fine, Summable]
  · cases v with
    | num a =>
      show Fine parse (some (.num a)) (w :: vs) ↔ _
      rw [fine_num]; rfl
    | txt s => simp [Fine, Summable]

private theorem after_none {es : List Entry} {k : Nat × Nat} (h : Summable parse (storedAt es k)) :
    (after parse none (storedAt es k)).getD (.num 0) = element parse es k := by
  unfold element
  revert h
  rcases storedAt es k with _ | ⟨v, _ | ⟨w, vs⟩⟩ <;> intro h
  · rfl
  · rfl
  · cases v with
    | num a =>
      show (after parse (some (.num a)) (w :: vs)).getD (.num 0) = _
      rw [after_num]
      simp [numeric]
    | txt s => exact absurd h (by simp [Summable])

private theorem storedAt_of_nodup {d : List Entry} (hn : (d.map Prod.fst).Nodup) (k : Nat × Nat) :
    storedAt d k = (PyDict.get? d k).toList := by
  induction d with
  | nil => rfl
  | cons e d ih =>
    simp only [List.map_cons, List.nodup_cons] at hn
    rw [storedAt_cons, ih hn.2]
    by_cases hk : e.1 = k
    · subst hk
      have : PyDict.get? d e.1 = none := by
        cases hg : PyDict.get? d e.1 with
        | none => rfl
        | some v => exact absurd (PyDict.mem_keys.2 (by rw [hg]; rfl)) hn.1
      simp [this, PyDict.get?]
    · simp [hk, PyDict.get?]

private theorem element_of_nodup {d : List Entry} (hn : (d.map Prod.fst).Nodup) (k : Nat × Nat) :
    element parse d k = (PyDict.get? d k).getD (.num 0) := by
  unfold element
  rw [storedAt_of_nodup hn]
  cases PyDict.get? d k <;> rfl

private theorem nodup_filter_keys {d : List Entry} (hn : (d.map Prod.fst).Nodup) (p : Entry → Bool) :
    ((d.filter p).map Prod.fst).Nodup :=
  hn.sublist (List.filter_sublist.map _)

private theorem get?_filter {d : List Entry} (hn : (d.map Prod.fst).Nodup) (k : Nat × Nat) :
    (PyDict.get? (d.filter (fun p => decide (p.2 ≠ .num 0))) k).getD (.num 0)
      = (PyDict.get? d k).getD (.num 0) := by
  induction d with
  | nil => rfl
  | cons e d ih =>
    simp only [List.map_cons, List.nodup_cons] at hn
    have ih' := ih hn.2
    by_cases hz : e.2 = .num 0
    · rw [List.filter_cons_of_neg (by simp [hz]), ih']
      by_cases hk : e.1 = k
      · subst hk
        have : PyDict.get? d e.1 = none := by
          cases hg : PyDict.get? d e.1 with
          | none => rfl
          | some v => exact absurd (PyDict.mem_keys.2 (by rw [hg]; rfl)) hn.1
        simp [this, PyDict.get?, hz]
      · simp [PyDict.get?, hk]
    · rw [List.filter_cons_of_pos (by simp [hz])]
      by_cases hk : e.1 = k
      · simp [PyDict.get?, hk]
      · simp only [PyDict.get?, hk, if_false]; exact ih'

private theorem result {es r : List Entry} (h : removeDuplicates parse es = .ok r) :
    (∃ st, loop parse {} es = .ok st ∧
      ((r = es ∧ (es.map Prod.fst).Nodup ∧ ∀ e ∈ es, e.2 ≠ .num 0) ∨
        r = st.seen.filter (fun p => decide (p.2 ≠ .num 0)))) := by
  unfold removeDuplicates at h
  rw [Res.bind_ok] at h
  obtain ⟨st, h1, h2⟩ := h
  refine ⟨st, h1, ?_⟩
  obtain ⟨-, -, b3, b4, -, -⟩ := loop_ok h1
  split at h2
  · rename_i hc
    simp only [Bool.and_eq_true, Bool.not_eq_true'] at hc
    left
    exact ⟨(Except.ok.inj h2).symm, (b3.1 hc.1).2.1, (b4.1 hc.2).2⟩
  · exact Or.inr (Except.ok.inj h2).symm

/-! ## Theorems -/

/-- The call succeeds exactly when the values stored at each coordinate can be summed: a coordinate
stored more than once holds a number first and then numbers or text denoting numbers. -/
theorem C45_accepted_iff (parse : String → Option Rat) (es : List Entry) :
    (∃ r, removeDuplicates parse es = .ok r) ↔ ∀ k, Summable parse (storedAt es k) := by
  constructor
  · rintro ⟨r, h⟩ k
    obtain ⟨st, h1, -⟩ := result h
    have := (loop_ok h1).2.1 k
    exact (fine_none _).1 this
  · intro h
    obtain ⟨st, h1⟩ := loop_total (parse := parse) (es := es) (st := {}) (fun k => (fine_none _).2 (h k))
    unfold removeDuplicates
    rw [h1]
    simp only [bind, Except.bind]
    split <;> exact ⟨_, rfl⟩

/-- On numbers alone the call always succeeds. -/
theorem C45_numeric_accepted (parse : String → Option Rat) (es : List Entry)
    (h : ∀ e ∈ es, ∃ q, e.2 = .num q) : ∃ r, removeDuplicates parse es = .ok r := by
  rw [C45_accepted_iff]
  intro k
  have hm : ∀ v ∈ storedAt es k, ∃ q, v = .num q := by
    intro v hv
    unfold storedAt at hv
    obtain ⟨e, he, rfl⟩ := List.mem_map.1 hv
    exact h e (List.mem_filter.1 he).1
  revert hm
  rcases storedAt es k with _ | ⟨v, _ | ⟨w, vs⟩⟩ <;> intro hm
  · trivial
  · trivial
  · obtain ⟨q, rfl⟩ := hm v (by simp)
    intro u hu
    obtain ⟨p, rfl⟩ := hm u (List.mem_cons_of_mem _ hu)
    rfl

/-- Duplicates with a value that does not denote a number are refused. -/
theorem C45_nonnumeric_refused (parse : String → Option Rat) (es : List Entry) (k : Nat × Nat)
    (s : String) (hd : 2 ≤ (storedAt es k).length) (hs : .txt s ∈ storedAt es k)
    (hp : parse s = none) : ∃ e, removeDuplicates parse es = .error e := by
  cases h : removeDuplicates parse es with
  | error e => exact ⟨e, rfl⟩
  | ok r =>
    have := (C45_accepted_iff parse es).1 ⟨r, h⟩ k
    revert this hd hs
    rcases storedAt es k with _ | ⟨v, _ | ⟨w, vs⟩⟩ <;> intro hd hs hf
    · simp at hd
    · simp at hd
    · cases v with
      | txt t => exact absurd hf (by simp [Summable])
      | num a =>
        rcases List.mem_cons.1 hs with h' | h'
        · cases h'
        · have := hf _ h'
          simp [numeric, hp] at this

/-- The result stores every coordinate once. -/
theorem C45_coordinates_distinct (parse : String → Option Rat) (es r : List Entry)
    (h : removeDuplicates parse es = .ok r) : (r.map Prod.fst).Nodup := by
  obtain ⟨st, h1, ⟨rfl, hn, -⟩ | rfl⟩ := result h
  · exact hn
  · exact nodup_filter_keys ((loop_ok h1).2.2.2.2.1 List.nodup_nil) _

/-- The result stores no zero. -/
theorem C45_no_stored_zero (parse : String → Option Rat) (es r : List Entry)
    (h : removeDuplicates parse es = .ok r) : ∀ e ∈ r, e.2 ≠ .num 0 := by
  obtain ⟨st, h1, ⟨rfl, -, hz⟩ | rfl⟩ := result h
  · exact hz
  · intro e he
    simpa using (List.mem_filter.1 he).2

/-- The represented matrix is unchanged. -/
theorem C45_matrix_unchanged (parse : String → Option Rat) (es r : List Entry)
    (h : removeDuplicates parse es = .ok r) (k : Nat × Nat) :
    element parse r k = element parse es k := by
  obtain ⟨st, h1, ⟨rfl, hn, -⟩ | rfl⟩ := result h
  · rfl
  · obtain ⟨b1, b2, -, -, b5, -⟩ := loop_ok h1
    have hn := b5 List.nodup_nil
    rw [element_of_nodup (nodup_filter_keys hn _), get?_filter hn, b1]
    exact after_none ((fine_none _).1 (b2 k))

/-- A coordinate is stored in the result exactly when the matrix is not 0 there; in particular no
coordinate appears that was not stored before. -/
theorem C45_stored_iff (parse : String → Option Rat) (es r : List Entry)
    (h : removeDuplicates parse es = .ok r) (k : Nat × Nat) :
    k ∈ r.map Prod.fst ↔ element parse es k ≠ .num 0 := by
  rw [← C45_matrix_unchanged parse es r h k]
  have hn := C45_coordinates_distinct parse es r h
  have hz := C45_no_stored_zero parse es r h
  rw [element_of_nodup hn]
  constructor
  · intro hk
    obtain ⟨v, hv⟩ := Option.isSome_iff_exists.1 (PyDict.mem_keys.1 hk)
    rw [hv]
    exact hz _ (PyDict.mem_of_get? hv)
  · intro hk
    apply PyDict.mem_keys.2
    cases hg : PyDict.get? r k with
    | none => rw [hg] at hk; exact absurd rfl hk
    | some v => rfl

/-- Doing it again changes nothing. -/
theorem C45_idempotent (parse : String → Option Rat) (es r : List Entry)
    (h : removeDuplicates parse es = .ok r) : removeDuplicates parse r = .ok r := by
  have hn := C45_coordinates_distinct parse es r h
  have hz := C45_no_stored_zero parse es r h
  obtain ⟨r', h'⟩ := (C45_accepted_iff parse r).2 (fun k => by
    rw [storedAt_of_nodup hn]
    cases PyDict.get? r k <;> trivial)
  have : r' = r := by
    unfold removeDuplicates at h'
    rw [Res.bind_ok] at h'
    obtain ⟨st, h1, h2⟩ := h'
    obtain ⟨-, -, b3, b4, -, -⟩ := loop_ok h1
    have hd : st.duplicates = false := b3.2 ⟨rfl, hn, by simp [PyDict.keys]⟩
    have hzz : st.zeroInData = false := b4.2 ⟨rfl, hz⟩
    rw [hd, hzz] at h2
    exact (Except.ok.inj h2).symm
  rw [h', this]

/-- A matrix without repeated coordinates and stored zeros is returned as it is. -/
theorem C45_clean_unchanged (parse : String → Option Rat) (es : List Entry)
    (hn : (es.map Prod.fst).Nodup) (hz : ∀ e ∈ es, e.2 ≠ .num 0) :
    removeDuplicates parse es = .ok es := by
  obtain ⟨r', h'⟩ := (C45_accepted_iff parse es).2 (fun k => by
    rw [storedAt_of_nodup hn]
    cases PyDict.get? es k <;> trivial)
  unfold removeDuplicates at h' ⊢
  rw [Res.bind_ok] at h'
  obtain ⟨st, h1, h2⟩ := h'
  obtain ⟨-, -, b3, b4, -, -⟩ := loop_ok h1
  have hd : st.duplicates = false := b3.2 ⟨rfl, hn, by simp [PyDict.keys]⟩
  have hzz : st.zeroInData = false := b4.2 ⟨rfl, hz⟩
  rw [h1]
  simp only [bind, Except.bind, hd, hzz]
  rfl

/-! ## Non-vacuity and witnesses -/

/-- `float` on a few texts. -/
def someParse : String → Option Rat
  | "4" => some 4
  | _ => none

/-- Three entries at (0,1) sum to 0 and disappear, two at (2,0) are summed, the text stays. -/
theorem C45_example : removeDuplicates someParse
    [((0, 1), .num 2), ((2, 0), .num 5), ((0, 1), .num 1), ((1, 1), .txt "a"), ((0, 1), .num (-3)),
      ((2, 0), .num 1)]
    = .ok [((2, 0), .num 6), ((1, 1), .txt "a")] := by decide +kernel

/-- The documentation says that duplicates involving non-numeric data raise; the text `'4'` after a
number is added to it instead, and the text before the number raises. -/
theorem C45_numeric_text_violated :
    removeDuplicates someParse [((0, 0), .num 1), ((0, 0), .txt "4")] = .ok [((0, 0), .num 5)] ∧
    removeDuplicates someParse [((0, 0), .txt "4"), ((0, 0), .num 1)] = .error .TypeError := by
  decide +kernel

/-- The promised `ValueError` is a bare `TypeError` when the text comes first. -/
theorem C45_error_class_violated :
    removeDuplicates someParse [((0, 0), .txt "a"), ((0, 0), .num 1)] = .error .TypeError ∧
    removeDuplicates someParse [((0, 0), .num 1), ((0, 0), .txt "a")] = .error .ValueError := by
  decide +kernel

end SparseDup
end Nimble
