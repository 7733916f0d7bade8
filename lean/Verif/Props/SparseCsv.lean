import Verif.Model.SparseCsv
import Verif.Props.SparseCore

/-!
# C97: saving Sparse objects to csv files
-/

namespace Nimble.SpCsv
open Csv Sp
variable {V : Type} [Zero V] [DecidableEq V]

/-- The text of an element: that of the zero of the type of the data, or the value's own. -/
def elemText (text : V → Str) (zt : Str) (v : V) : Str := if v = 0 then zt else text v

/-- The entries not yet written, at point `i` and feature `j`. -/
structure Rest (c : Coo V) (i j : Nat) (es : List (Ent V)) : Prop where
  sorted : es.Pairwise (fun a b => Coo.lexLe .point a b = true)
  nodup : (es.map Ent.pos).Nodup
  mem : ∀ e, e ∈ es ↔ e ∈ c.ents ∧ (i < e.row ∨ (i = e.row ∧ j ≤ e.col))

omit [Zero V] [DecidableEq V] in
theorem lexLe_point {a b : Ent V} : Coo.lexLe .point a b = true ↔ a.row < b.row ∨ (a.row = b.row ∧ a.col ≤ b.col) := by
  show (decide (a.row < b.row) || (decide (a.row = b.row) && decide (a.col ≤ b.col))) = true ↔ _
  simp

omit [DecidableEq V] in
/-- If the element is stored it is the next entry. -/
theorem Rest.next {c : Coo V} {i j : Nat} {es : List (Ent V)} (h : Rest c i j es) :
    isNext i j es = true ↔ ∃ e ∈ c.ents, e.pos = (i, j) := by
  cases es with
  | nil =>
    constructor
    · intro h; cases h
    · rintro ⟨e, he, hp⟩
      have h1 : e.row = i := congrArg Prod.fst hp
      have h2 : e.col = j := congrArg Prod.snd hp
      have := (h.mem e).2 ⟨he, .inr ⟨h1.symm, by omega⟩⟩
      cases this
  | cons x es =>
    simp only [isNext, decide_eq_true_eq]
    constructor
    · rintro ⟨rfl, rfl⟩
      exact ⟨x, ((h.mem x).1 (by simp)).1, rfl⟩
    · rintro ⟨e, he, hp⟩
      have h1 : e.row = i := congrArg Prod.fst hp
      have h2 : e.col = j := congrArg Prod.snd hp
      have hm := (h.mem e).2 ⟨he, .inr ⟨h1.symm, by omega⟩⟩
      rcases List.mem_cons.1 hm with rfl | hm
      · exact ⟨h1.symm, h2.symm⟩
      · have hle := lexLe_point.1 ((List.pairwise_cons.1 h.sorted).1 e hm)
        have hge := ((h.mem x).1 (by simp)).2
        omega

omit [DecidableEq V] in
theorem Rest.advance {c : Coo V} {i j : Nat} {es : List (Ent V)} (h : Rest c i j es) :
    Rest c i (j + 1) (advance i j es) := by
  unfold SpCsv.advance
  by_cases hn : isNext i j es = true
  · rw [if_pos hn]
    cases es with
    | nil => cases hn
    | cons x es =>
      simp only [isNext, decide_eq_true_eq] at hn
      have hnd := List.nodup_cons.1 (by simpa using h.nodup : (x.pos :: es.map Ent.pos).Nodup)
      refine ⟨(List.pairwise_cons.1 h.sorted).2, hnd.2, ?_⟩
      intro e
      show e ∈ es ↔ _
      constructor
      · intro he
        have h1 := (h.mem e).1 (List.mem_cons_of_mem _ he)
        refine ⟨h1.1, ?_⟩
        have hne : e.pos ≠ x.pos := fun hc => hnd.1 (by rw [← hc]; exact List.mem_map_of_mem he)
        have hle := lexLe_point.1 ((List.pairwise_cons.1 h.sorted).1 e he)
        have : ¬ (e.row = x.row ∧ e.col = x.col) := fun hc => hne (Prod.ext hc.1 hc.2)
        omega
      · rintro ⟨he, hp⟩
        have := (h.mem e).2 ⟨he, by omega⟩
        rcases List.mem_cons.1 this with rfl | hm
        · omega
        · exact hm
  · rw [if_neg hn]
    refine ⟨h.sorted, h.nodup, ?_⟩
    intro e
    rw [h.mem e]
    constructor
    · rintro ⟨he, hp⟩
      refine ⟨he, ?_⟩
      by_contra hc
      exact hn (h.next.2 ⟨e, he, Prod.ext (show e.row = i by omega) (show e.col = j by omega)⟩)
    · rintro ⟨he, hp⟩
      exact ⟨he, by omega⟩

/-- The text written for an element. -/
theorem Rest.cell {c : Coo V} (hc : c.Core) {i j : Nat} {es : List (Ent V)} (h : Rest c i j es) (text : V → Str)
    {zt : Str} (hz : ',' ∉ zt) : cellText text zt i j es = csvCommaFormat (elemText text zt (c.at i j)) := by
  unfold cellText
  cases hn : isNext i j es with
  | true =>
    cases es with
    | nil => cases hn
    | cons x es =>
      simp only [isNext, decide_eq_true_eq] at hn
      have hm := ((h.mem x).1 (by simp)).1
      have hat := Coo.at_of_mem hc.nodup hm
      rw [← hn.1, ← hn.2] at hat
      dsimp only
      unfold elemText
      rw [hat, if_neg (hc.nonzero x hm)]
  | false =>
    have h0 : c.at i j = 0 := Coo.at_of_not (fun e he hp => by
      rw [h.next.2 ⟨e, he, hp⟩] at hn
      cases hn)
    unfold elemText csvCommaFormat
    rw [h0, if_pos rfl, if_neg hz]

theorem walkRow_eq {c : Coo V} (hc : c.Core) (text : V → Str) {zt : Str} (hz : ',' ∉ zt) (i n j : Nat)
    {es : List (Ent V)} (h : Rest c i j es) :
    (walkRow text zt i (List.range' j n) es).1 =
      (List.range' j n).map (fun j => csvCommaFormat (elemText text zt (c.at i j))) ∧
    Rest c i (j + n) (walkRow text zt i (List.range' j n) es).2 := by
  induction n generalizing j es with
  | zero => exact ⟨rfl, h⟩
  | succ n ih =>
    rw [List.range'_succ]
    obtain ⟨h1, h2⟩ := ih (j + 1) h.advance
    refine ⟨?_, ?_⟩
    · show _ :: _ = _
      rw [List.map_cons, h1, h.cell hc text hz]
    · rw [show j + (n + 1) = j + 1 + n by omega]
      exact h2

theorem walkRows_eq {c : Coo V} (hc : c.Core) (text : V → Str) {zt : Str} (hz : ',' ∉ zt) (n i : Nat)
    {es : List (Ent V)} (h : Rest c i 0 es) :
    walkRows text zt c.cols (List.range' i n) es = (List.range' i n).map (fun i => (List.range c.cols).map
      (fun j => csvCommaFormat (elemText text zt (c.at i j)))) := by
  induction n generalizing i es with
  | zero => rfl
  | succ n ih =>
    rw [List.range'_succ]
    obtain ⟨h1, h2⟩ := walkRow_eq hc text hz i c.cols 0 h
    rw [← List.range_eq_range'] at h1 h2
    show _ :: _ = _
    rw [List.map_cons, h1]
    congr 1
    refine ih (i + 1) ⟨h2.sorted, h2.nodup, fun e => ?_⟩
    rw [h2.mem e]
    constructor
    · rintro ⟨he, hp⟩
      have := hc.col_lt e he
      exact ⟨he, by omega⟩
    · rintro ⟨he, hp⟩
      exact ⟨he, by omega⟩

theorem line_eq (n : Str) {cells : List Str} (h : cells ≠ []) :
    line (some n) (cells.map csvCommaFormat) = csvLine (n :: cells) := by
  cases cells with
  | nil => exact absurd rfl h
  | cons a l => simp [line, csvLine, joinComma]

theorem namedLines_eq (ns : List (Option Str)) (rows : List (List Str)) (h : ∀ r ∈ rows, r ≠ []) :
    namedLines ns (rows.map (·.map csvCommaFormat)) = Csv.namedLines ns rows := by
  induction rows generalizing ns with
  | nil => cases ns with
    | nil => rfl
    | cons n ns => cases n <;> rfl
  | cons r rs ih =>
    cases ns with
    | nil => rfl
    | cons n ns =>
      cases n with
      | none => rfl
      | some n =>
        simp only [List.map_cons, namedLines, Csv.namedLines]
        rw [ih ns (fun r hr => h r (List.mem_cons_of_mem _ hr)), line_eq n (h r (by simp))]

/-- **C97 (csv).**  Saving a Sparse object writes exactly the file that the other types write for the same elements,
with or without names and with the same refusals, however the values are stored; and the object keeps its elements. -/
theorem C97_csv (text : V → Str) {zt : Str} (hz : ',' ∉ zt) {c : Coo V} (h : c.WF) (includeNames : Bool)
    (pnames fnames : Option (List (Option Str))) :
    (saveCsv text zt includeNames pnames fnames c).2 =
      Csv.saveCsv includeNames pnames fnames (c.dense.map (·.map (elemText text zt))) ∧
    (saveCsv text zt includeNames pnames fnames c).1.WF ∧
    (saveCsv text zt includeNames pnames fnames c).1.dense = c.dense := by
  have hs := Coo.sortInternal_spec h.toCore .point false false (fun _ => h)
  have hd := hs.dense h.nodup
  unfold saveCsv Csv.saveCsv
  have hempty : (c.rows = 0 ∨ c.cols = 0) ↔ (c.dense.map (·.map (elemText text zt)) = [] ∨
      (c.dense.map (·.map (elemText text zt))).head? = some []) := by
    unfold Coo.dense
    rcases Nat.eq_zero_or_pos c.rows with h0 | h0
    · simp [h0]
    · obtain ⟨n, hn⟩ : ∃ n, c.rows = n + 1 := ⟨c.rows - 1, by omega⟩
      rw [hn, List.range_succ_eq_map]
      simp
  by_cases he : c.rows = 0 ∨ c.cols = 0
  · rw [if_pos he, if_pos (hempty.1 he)]
    exact ⟨rfl, h, rfl⟩
  · rw [if_neg he, if_neg (fun hc => he (hempty.2 hc))]
    dsimp only
    cases hh : saveHeader (namesSeen includeNames fnames) (namesSeen includeNames pnames) (fnames.getD []) with
    | error e => exact ⟨rfl, h, rfl⟩
    | ok header =>
      dsimp only
      have hrest : Rest (c.sortInternal .point false) 0 0 (c.sortInternal .point false).ents :=
        ⟨hs.wf.sorted_ok _ hs.sorted, hs.wf.nodup, fun e => ⟨fun he => ⟨he, by omega⟩, fun he => he.1⟩⟩
      have hw := walkRows_eq hs.wf.toCore text hz (c.sortInternal .point false).rows 0 hrest
      rw [← List.range_eq_range'] at hw
      have hrows : (List.range (c.sortInternal .point false).rows).map
          (fun i => (List.range (c.sortInternal .point false).cols).map
            (fun j => csvCommaFormat (elemText text zt ((c.sortInternal .point false).at i j)))) =
          (c.dense.map (·.map (elemText text zt))).map (·.map csvCommaFormat) := by
        rw [← hd]
        unfold Coo.dense
        simp [List.map_map, Function.comp_def]
      rw [hw, hrows]
      have hne : ∀ r ∈ c.dense.map (·.map (elemText text zt)), r ≠ [] := by
        intro r hr hc
        obtain ⟨r', hr', rfl⟩ := List.mem_map.1 hr
        have := Coo.row_dense hr'
        rw [List.map_eq_nil_iff] at hc
        rw [hc] at this
        exact he (.inr this.symm)
      have hbody : body (namesSeen includeNames pnames) (pnames.getD [])
          ((c.dense.map (·.map (elemText text zt))).map (·.map csvCommaFormat)) =
          saveBody (namesSeen includeNames pnames) (pnames.getD []) (c.dense.map (·.map (elemText text zt))) := by
        unfold body saveBody
        split
        · exact namedLines_eq _ _ hne
        · rw [List.flatMap_map]
          rfl
      rw [hbody]
      cases saveBody (namesSeen includeNames pnames) (pnames.getD []) (c.dense.map (·.map (elemText text zt))) with
      | error e => exact ⟨rfl, hs.wf, hd⟩
      | ok b => exact ⟨rfl, hs.wf, hd⟩

/-! ## Examples -/

/-- The matrix [[0, 5], [7, 0]] as it is after a change: not sorted. -/
def exC : Coo Nat := ⟨2, 2, [⟨1, 0, 7⟩, ⟨0, 1, 5⟩], none, none⟩

example : exC.WF where
  nodup := by decide
  row_lt := by decide
  col_lt := by decide
  nonzero := by decide
  sorted_ok := fun _ h => by cases h
  indices_ok := fun _ h => by cases h

/-- A case of `C97_csv`: the file for a sorted matrix with names. -/
example : (saveCsv (fun v : Nat => (toString v).toList) "0".toList true (some [some "p".toList, some "q,r".toList])
      (some [some "a".toList, some "b".toList]) ⟨2, 2, [⟨0, 1, 5⟩, ⟨1, 0, 7⟩], some .point, none⟩).2 =
    .ok "pointNames,a,b\np,0,5\n\"q,r\",7,0\n".toList := by decide +kernel

end Nimble.SpCsv
