import Verif.Model.Parsing
import Verif.Props.ConvertType
import Verif.Props.SparseCore

/-!
# C92 `features.splitByParsing`
-/

namespace Nimble.Parse
open Nimble
variable {V : Type}

/-! ## Specification -/

/-- `p` is the part of `v` before the first occurrence of `sep`, and `rest` the part after it. -/
def FirstCut (sep v p rest : Txt) : Prop :=
  v = p ++ sep ++ rest ∧ ∀ q r, v = q ++ sep ++ r → p.length ≤ q.length

/-- `parts` are the parts of `v` between the occurrences of `sep`, from left to right. -/
def Parts (sep : Txt) : Txt → List Txt → Prop
  | v, [p] => p = v ∧ ¬ sep <:+: v
  | v, p :: q :: ps => ∃ rest, FirstCut sep v p rest ∧ Parts sep rest (q :: ps)
  | _, [] => False

/-- `parts` are the parts of `v` by these items, the first character of `v` being at `at`: a text is taken out at its
next occurrence, an integer cuts before the character at that index. -/
def Woven : Nat → List Item → Txt → List Txt → Prop
  | _, [], v, ps => ps = [v]
  | a, .text s :: its, v, ps => ∃ p rest qs, ps = p :: qs ∧ FirstCut s v p rest ∧
      Woven (a + p.length + s.length) its rest qs
  | a, .pos i :: its, v, ps => ∃ p rest qs, ps = p :: qs ∧ v = p ++ rest ∧ i = (a + p.length : Nat) ∧
      Woven (a + p.length) its rest qs

/-- An item that is a text of one character. -/
def OneChar (it : Item) : Prop := ∃ c, it = .text [c]

/-- What the rule makes of a value. -/
def SplitsTo (T : TextOps V) (rule : Rule V) (v : V) (ps : List V) : Prop :=
  match rule with
  | .text s => ∃ w qs, T.asText v = some w ∧ s ≠ [] ∧ Parts s w qs ∧ ps = qs.map T.ofText
  | .pos i => ∃ w p q, T.asText v = some w ∧ w = p ++ q ∧ ps = [T.ofText p, T.ofText q] ∧
      (p.length : Int) = if i < 0 then max 0 (i + w.length) else min i w.length
  | .items l => ∃ w qs, T.asText v = some w ∧ Woven 0 l w qs ∧ ps = qs.map T.ofText
  | .fn f => f v = .ok ps

/-- A rule without the lists whose items are more than one character. -/
def Plain (rule : Rule V) : Prop :=
  match rule with
  | .items l => ∀ it ∈ l, OneChar it
  | _ => True

/-! ## Texts -/

theorem findText_some {sep : Txt} : ∀ {v : Txt} {k : Nat}, findText sep v = some k →
    FirstCut sep v (v.take k) (v.drop (k + sep.length)) ∧ k ≤ v.length := by
  intro v
  induction v with
  | nil =>
    intro k h
    unfold findText at h
    split at h
    · next hp =>
      cases h
      have : sep = [] := by simpa [List.isPrefixOf_iff_prefix] using hp
      subst this
      exact ⟨⟨rfl, fun q r _ => by simp⟩, by simp⟩
    · cases h
  | cons c cs ih =>
    intro k h
    unfold findText at h
    split at h
    · next hp =>
      cases h
      rw [List.isPrefixOf_iff_prefix] at hp
      refine ⟨⟨?_, fun q r _ => by simp⟩, by simp⟩
      obtain ⟨t, ht⟩ := hp
      rw [← ht]; simp
    · next hp =>
      rw [List.isPrefixOf_iff_prefix] at hp
      cases hf : findText sep cs with
      | none => rw [hf] at h; cases h
      | some m =>
        rw [hf] at h
        simp only [Option.map_some, Option.some.injEq] at h
        subst h
        obtain ⟨⟨h1, h2⟩, h3⟩ := ih hf
        refine ⟨⟨?_, ?_⟩, by simp; omega⟩
        · rw [show m + 1 + sep.length = (m + sep.length) + 1 by omega]
          simp only [List.take_succ_cons, List.drop_succ_cons, List.cons_append]
          rw [List.append_assoc] at h1
          rw [List.append_assoc, ← h1]
        · intro q r hq
          cases q with
          | nil => exact absurd ⟨r, by simpa using hq.symm⟩ hp
          | cons d q =>
            simp only [List.cons_append, List.cons.injEq] at hq
            have := h2 q r (by simpa using hq.2)
            simp only [List.take_succ_cons, List.length_cons]
            omega

theorem findText_none {sep : Txt} : ∀ {v : Txt}, findText sep v = none ↔ ¬ sep <:+: v := by
  intro v
  induction v with
  | nil =>
    unfold findText
    by_cases h : sep = []
    · subst h; simp
    · have : sep.isPrefixOf [] = false := by
        rw [Bool.eq_false_iff, Ne, List.isPrefixOf_iff_prefix]; simpa using h
      simp [this, h]
  | cons c cs ih =>
    unfold findText
    by_cases hp : sep <+: c :: cs
    · rw [if_pos (List.isPrefixOf_iff_prefix.2 hp)]
      simp [hp.isInfix]
    · rw [if_neg (by rwa [List.isPrefixOf_iff_prefix])]
      rw [Option.map_eq_none_iff, ih, List.infix_cons_iff]
      tauto

theorem firstCut_unique {sep v p r p' r' : Txt} (h : FirstCut sep v p r) (h' : FirstCut sep v p' r') :
    p = p' ∧ r = r' := by
  have l : p.length = p'.length := le_antisymm (h.2 _ _ h'.1) (h'.2 _ _ h.1)
  have e := h.1.symm.trans h'.1
  rw [List.append_assoc, List.append_assoc] at e
  obtain ⟨e1, e2⟩ := List.append_inj e l
  exact ⟨e1, List.append_cancel_left e2⟩

theorem findText_cut {sep v p r : Txt} (h : FirstCut sep v p r) : findText sep v = some p.length := by
  cases hf : findText sep v with
  | none =>
    rw [findText_none] at hf
    exact absurd ⟨p, r, h.1.symm⟩ hf
  | some k =>
    obtain ⟨h1, h2⟩ := findText_some hf
    obtain ⟨e, _⟩ := firstCut_unique h1 h
    rw [← e]; simp [h2]

theorem splitGo_iff {sep : Txt} (hs : sep ≠ []) : ∀ {fuel : Nat} {v : Txt} {ps : List Txt}, v.length < fuel →
    (splitGo sep fuel v = ps ↔ Parts sep v ps) := by
  have hsl : 0 < sep.length := List.length_pos_iff.2 hs
  intro fuel
  induction fuel with
  | zero => intro v ps h; omega
  | succ n ih =>
    intro v ps hl
    unfold splitGo
    cases hf : findText sep v with
    | none =>
      dsimp only
      rw [findText_none] at hf
      constructor
      · rintro rfl; exact ⟨rfl, hf⟩
      · intro h
        match ps, h with
        | [p], h => rw [h.1]
        | p :: q :: ps, ⟨r, h1, _⟩ => exact absurd ⟨p, r, h1.1.symm⟩ hf
    | some k =>
      dsimp only
      obtain ⟨h1, h2⟩ := findText_some hf
      have hlt : (v.drop (k + sep.length)).length < n := by
        have := congrArg List.length h1.1
        simp only [List.length_append, List.length_take, List.length_drop] at this ⊢
        omega
      constructor
      · rintro rfl
        cases hg : splitGo sep n (v.drop (k + sep.length)) with
        | nil => exact absurd ((ih hlt).1 hg) (by simp [Parts])
        | cons q qs => exact ⟨_, h1, (ih hlt).1 hg⟩
      · intro h
        match ps, h with
        | [p], h => exact absurd (by exact ⟨_, _, h1.1.symm⟩) h.2
        | p :: q :: qs, ⟨r, c1, c2⟩ =>
          obtain ⟨e1, e2⟩ := firstCut_unique h1 c1
          rw [e1, e2] 
          rw [e2] at hlt
          rw [(ih hlt).2 c2]

theorem splitText_iff {sep v : Txt} {ps : List Txt} : splitText sep v = .ok ps ↔ sep ≠ [] ∧ Parts sep v ps := by
  unfold splitText
  by_cases h : sep = []
  · rw [if_pos h]
    exact ⟨fun x => (by cases x), fun x => absurd h x.1⟩
  · rw [if_neg h]
    rw [← splitGo_iff h (Nat.lt_succ_self v.length)]
    exact ⟨fun x => ⟨h, by cases x; rfl⟩, fun x => by rw [x.2]⟩

theorem bound_nat (n k : Nat) (h : k ≤ n) : bound n (k : Int) = k := by
  unfold bound
  rw [if_neg (by omega)]
  simp [h]

theorem itemStep_text (v : Txt) (start : Int) {s : Txt} (h : s ≠ []) :
    itemStep v start (.text s) = (match findText s (textFrom v start) with
      | none => .error .ValueError
      | some k => .ok ((textFrom v start).take k, k + (textTo v start).length + 1)) := by
  simp only [itemStep]
  rw [if_neg h]
  cases findText s (textFrom v start) <;> rfl

theorem itemStep_pos (v : Txt) (start i : Int) : itemStep v start (.pos i) = .ok (textBetween v start i, i) := rfl

/-- Parts by items, from a place inside the text. -/
theorem woven_items : ∀ (its : List Item) (pre v : Txt) (ps : List Txt),
    (∀ it ∈ its, OneChar it ∨ ∃ i, it = .pos i) → Woven pre.length its v ps →
    splitItems (pre ++ v) pre.length its = .ok ps := by
  intro its
  induction its with
  | nil =>
    intro pre v ps _ h
    rw [h]
    simp only [splitItems, textFrom]
    rw [bound_nat _ _ (by simp)]
    simp
  | cons it its ih =>
    intro pre v ps hall h
    have hrest : ∀ it ∈ its, OneChar it ∨ ∃ i, it = .pos i := fun x hx => hall x (by simp [hx])
    have hfrom : textFrom (pre ++ v) pre.length = v := by
      unfold textFrom; rw [bound_nat _ _ (by simp)]; simp
    have hto : textTo (pre ++ v) pre.length = pre := by
      unfold textTo; rw [bound_nat _ _ (by simp)]; simp
    cases it with
    | text s =>
      obtain ⟨p, rest, qs, rfl, hc, hw⟩ := h
      have hs : ∃ c, s = [c] := by
        rcases hall (.text s) (by simp) with ⟨c, e⟩ | ⟨i, e⟩
        · exact ⟨c, by injection e⟩
        · cases e
      obtain ⟨c, rfl⟩ := hs
      have := ih (pre ++ p ++ [c]) rest qs hrest (by simpa [Nat.add_assoc] using hw)
      have e : pre ++ p ++ [c] ++ rest = pre ++ v := by rw [hc.1]; simp
      rw [e] at this
      have hstep : itemStep (pre ++ v) pre.length (.text [c]) = .ok (p, ((pre ++ p ++ [c]).length : Nat)) := by
        rw [itemStep_text _ _ (by simp), hfrom, hto, findText_cut hc]
        have : v.take p.length = p := by rw [hc.1]; simp
        simp only [this, List.length_append, List.length_singleton]
        congr 2
        push_cast
        omega
      simp only [splitItems, hstep, this, bind, Except.bind, pure, Except.pure]
    | pos i =>
      obtain ⟨p, rest, qs, rfl, rfl, rfl, hw⟩ := h
      have := ih (pre ++ p) rest qs hrest (by simpa using hw)
      rw [List.append_assoc] at this
      have hstep : itemStep (pre ++ (p ++ rest)) pre.length (.pos ((pre.length + p.length : Nat) : Int)) =
          .ok (p, ((pre ++ p).length : Nat)) := by
        rw [itemStep_pos]
        unfold textBetween
        rw [bound_nat _ _ (by simp), bound_nat _ _ (by simp), ← List.append_assoc,
          show pre.length + p.length = (pre ++ p).length by simp, List.take_left]
        simp
      simp only [splitItems, hstep, this, bind, Except.bind, pure, Except.pure]

/-- Conversely, for texts of one character. -/
theorem items_woven : ∀ (its : List Item) (pre v : Txt) (ps : List Txt),
    (∀ it ∈ its, OneChar it) → splitItems (pre ++ v) pre.length its = .ok ps → Woven pre.length its v ps := by
  intro its
  induction its with
  | nil =>
    intro pre v ps _ h
    simp only [splitItems, textFrom] at h
    rw [bound_nat _ _ (by simp)] at h
    simp only [List.drop_left] at h
    cases h; rfl
  | cons it its ih =>
    intro pre v ps hall h
    obtain ⟨c, rfl⟩ := hall it (by simp)
    have hfrom : textFrom (pre ++ v) pre.length = v := by
      unfold textFrom; rw [bound_nat _ _ (by simp)]; simp
    have hto : textTo (pre ++ v) pre.length = pre := by
      unfold textTo; rw [bound_nat _ _ (by simp)]; simp
    have hstep : itemStep (pre ++ v) pre.length (.text [c]) = (match findText [c] v with
      | none => .error .ValueError
      | some k => .ok (v.take k, (k + pre.length + 1 : Int))) := by
      rw [itemStep_text _ _ (by simp), hfrom, hto]
    simp only [splitItems, hstep, bind, Except.bind, pure, Except.pure] at h
    cases hf : findText [c] v with
    | none => rw [hf] at h; cases h
    | some k =>
      rw [hf] at h
      dsimp only at h
      obtain ⟨hc, hk⟩ := findText_some hf
      set p := v.take k with hp
      set rest := v.drop (k + [c].length) with hr
      have hpl : p.length = k := by rw [hp]; simp [hk]
      have e : pre ++ v = (pre ++ p ++ [c]) ++ rest := by
        have := hc.1
        rw [List.append_assoc] at this
        rw [List.append_assoc, List.append_assoc, ← this]
      have e2 : ((k : Int) + pre.length + 1) = ((pre ++ p ++ [c]).length : Nat) := by
        simp only [List.length_append, hpl, List.length_singleton]; push_cast; omega
      rw [e2] at h
      cases hs : splitItems (pre ++ v) ((pre ++ p ++ [c]).length : Nat) its with
      | error x => rw [hs] at h; cases h
      | ok qs =>
        rw [hs] at h
        cases h
        rw [e] at hs
        have := ih _ _ _ (fun x hx => hall x (by simp [hx])) hs
        exact ⟨p, rest, qs, rfl, hc, by simpa [Nat.add_assoc] using this⟩

theorem needText_iff {T : TextOps V} {e : Err} {v : V} {w : Txt} :
    needText T e v = .ok w ↔ T.asText v = some w := by
  unfold needText
  cases T.asText v with
  | none => exact ⟨fun h => (by cases h), fun h => (by cases h)⟩
  | some x => exact ⟨fun h => by cases h; rfl, fun h => by cases h; rfl⟩

theorem splitValue_iff {T : TextOps V} {rule : Rule V} (hp : Plain rule) {v : V} {ps : List V} :
    splitValue T rule v = .ok ps ↔ SplitsTo T rule v ps := by
  cases rule with
  | fn f => exact Iff.rfl
  | text s =>
    constructor
    · intro h
      simp only [splitValue, bind, Except.bind, pure, Except.pure] at h
      cases h1 : needText T .AttributeError v with
      | error e => rw [h1] at h; cases h
      | ok w =>
        rw [h1] at h
        dsimp only at h
        cases h2 : splitText s w with
        | error e => rw [h2] at h; cases h
        | ok qs =>
          rw [h2] at h
          cases h
          obtain ⟨g1, g2⟩ := splitText_iff.1 h2
          exact ⟨w, qs, needText_iff.1 h1, g1, g2, rfl⟩
    · rintro ⟨w, qs, h1, h2, h3, rfl⟩
      simp only [splitValue, (needText_iff (e := .AttributeError)).2 h1, splitText_iff.2 ⟨h2, h3⟩, bind, Except.bind, pure,
        Except.pure]
  | pos i =>
    have hb : ∀ n : Nat, (bound n i : Int) = if i < 0 then max 0 (i + n) else min i n := by
      intro n
      unfold bound
      split <;> omega
    have hle : ∀ n : Nat, bound n i ≤ n := by
      intro n
      unfold bound
      split <;> omega
    constructor
    · intro h
      simp only [splitValue, bind, Except.bind, pure, Except.pure] at h
      cases h1 : needText T .TypeError v with
      | error e => rw [h1] at h; cases h
      | ok w =>
        rw [h1] at h
        cases h
        refine ⟨w, textTo w i, textFrom w i, needText_iff.1 h1, by simp [textTo, textFrom], rfl, ?_⟩
        rw [← hb w.length, textTo, List.length_take, Nat.min_eq_left (hle _)]
    · rintro ⟨w, p, q, h1, rfl, rfl, h2⟩
      have hl : p.length = bound (p ++ q).length i := by
        rw [← hb] at h2; exact_mod_cast h2
      simp only [splitValue, (needText_iff (e := .TypeError)).2 h1, bind, Except.bind, pure, Except.pure, textTo, textFrom, ← hl]
      simp
  | items l =>
    constructor
    · intro h
      simp only [splitValue, bind, Except.bind, pure, Except.pure] at h
      cases h1 : needText T .TypeError v with
      | error e => rw [h1] at h; cases h
      | ok w =>
        rw [h1] at h
        dsimp only at h
        cases h2 : splitItems w 0 l with
        | error e => rw [h2] at h; cases h
        | ok qs =>
          rw [h2] at h
          cases h
          exact ⟨w, qs, needText_iff.1 h1, items_woven l [] w qs hp h2, rfl⟩
    · rintro ⟨w, qs, h1, h2, rfl⟩
      have := woven_items l [] w qs (fun it hit => Or.inl (hp it hit)) h2
      simp only [List.nil_append, List.length_nil, Nat.cast_zero] at this
      simp only [splitValue, (needText_iff (e := .TypeError)).2 h1, this, bind, Except.bind, pure, Except.pure]

/-! ## Objects -/

theorem splitOne_ok {T : TextOps V} {rule : Rule V} {k : Nat} {v : V} {ps : List V} :
    splitOne T rule k v = .ok ps ↔ splitValue T rule v = .ok ps ∧ ps.length = k := by
  unfold splitOne
  simp only [bind, Except.bind, pure, Except.pure]
  cases splitValue T rule v with
  | error e => exact ⟨fun h => (by cases h), fun h => (by cases h.1)⟩
  | ok qs =>
    dsimp only
    by_cases hl : qs.length = k
    · rw [if_pos hl]
      exact ⟨fun h => by cases h; exact ⟨rfl, hl⟩, fun h => by cases h.1; rfl⟩
    · rw [if_neg hl]
      exact ⟨fun h => (by cases h), fun h => absurd h.2 (by cases h.1; exact hl)⟩

/-- `r` is `o` with feature `f` replaced by the parts of its values, the names not considered. -/
structure SplitData (T : TextOps V) (rule : Rule V) (f k : Nat) (o r : Obj V) : Prop where
  rows : r.data.length = o.pts.len
  width : ∀ row ∈ r.data, row.length = o.fts.len - 1 + k
  pts : r.pts = o.pts
  /-- the features before it are unchanged -/
  before : ∀ (i j : Nat), j < f → r.elem? i j = o.elem? i j
  /-- the features after it are moved and unchanged -/
  after : ∀ (i j : Nat), f < j → r.elem? i (j + k - 1) = o.elem? i j
  /-- the value of every point is replaced by its parts, in order -/
  parts : ∀ (i : Nat) v, o.elem? i f = some v → ∃ ps, splitValue T rule v = .ok ps ∧ ps.length = k ∧
    ∀ (t : Nat), t < k → r.elem? i (f + t) = ps[t]?

theorem splitRow_spec {f : Nat} {row ps : List V} (hf : f < row.length) :
    (splitRow f row ps).length = row.length - 1 + ps.length ∧
      (∀ (j : Nat), j < f → (splitRow f row ps)[j]? = row[j]?) ∧
      (∀ (j : Nat), f < j → (splitRow f row ps)[j + ps.length - 1]? = row[j]?) ∧
      ∀ (t : Nat), t < ps.length → (splitRow f row ps)[f + t]? = ps[t]? := by
  have hl : (row.take f).length = f := by simp; omega
  unfold splitRow
  refine ⟨by simp; omega, ?_, ?_, ?_⟩
  · intro j hj
    rw [List.getElem?_append_left (by simp; omega), List.getElem?_append_left (by omega), List.getElem?_take_of_lt hj]
  · intro j hj
    rw [List.getElem?_append_right (by simp; omega), List.getElem?_drop]
    congr 1
    simp only [List.length_append, hl]
    omega
  · intro t ht
    rw [List.getElem?_append_left (by simp; omega), List.getElem?_append_right (by omega), hl]
    congr 1; omega

theorem column_at {o : Obj V} (h : o.WF) {f : Nat} (hf : f < o.fts.len) (i : Nat) :
    (o.vector .feature f)[i]? = o.elem? i f := by
  by_cases hi : i < o.pts.len
  · exact (h.vector_elem hi hf).2
  · have h1 : (o.vector .feature f).length = o.pts.len := h.length_vector .feature hf
    rw [List.getElem?_eq_none (by omega)]
    unfold Obj.elem?
    rw [List.getElem?_eq_none (by rw [h.rows]; omega)]
    rfl

theorem splitData_of {T : TextOps V} {rule : Rule V} {o : Obj V} (h : o.WF) {f k : Nat} (hf : f < o.fts.len)
    {l : List (List V)} (hm : mapRes (splitOne T rule k) (o.vector .feature f) = .ok l) (fts : AxisSt) :
    SplitData T rule f k o ⟨List.zipWith (splitRow f) o.data l, o.pts, fts⟩ := by
  rw [Sources.mapRes_forall₂] at hm
  have hl : l.length = o.pts.len := by
    rw [← hm.length_eq]; exact h.length_vector .feature hf
  have hcell : ∀ (i : Nat) row, o.data[i]? = some row → ∃ v ps, row[f]? = some v ∧ o.elem? i f = some v ∧ l[i]? = some ps ∧
      splitValue T rule v = .ok ps ∧ ps.length = k := by
    intro i row hrow
    have hw := h.cols row (List.mem_of_getElem? hrow)
    have hv : row[f]? = some (row[f]'(by omega)) := List.getElem?_eq_getElem (by omega)
    have he : o.elem? i f = some (row[f]'(by omega)) := by unfold Obj.elem?; rw [hrow]; exact hv
    obtain ⟨ps, h1, h2⟩ := Sources.forall₂_at hm (by rw [column_at h hf]; exact he)
    obtain ⟨g1, g2⟩ := splitOne_ok.1 h2
    exact ⟨_, ps, hv, he, h1, g1, g2⟩
  have hrowspec : ∀ (i : Nat) row ps, o.data[i]? = some row → l[i]? = some ps →
      (List.zipWith (splitRow f) o.data l)[i]? = some (splitRow f row ps) := by
    intro i row ps h1 h2
    rw [List.getElem?_zipWith, h1, h2]
  have hout : ∀ (i : Nat), o.data[i]? = none → (List.zipWith (splitRow f) o.data l)[i]? = none := by
    intro i h1
    rw [List.getElem?_zipWith, h1]
  refine ⟨by simp [hl, h.rows], ?_, rfl, ?_, ?_, ?_⟩
  · intro row hrow
    obtain ⟨i, hi⟩ := List.mem_iff_getElem?.1 hrow
    cases h1 : o.data[i]? with
    | none => rw [hout i h1] at hi; cases hi
    | some q =>
      obtain ⟨v, ps, _, _, e1, _, e2⟩ := hcell i q h1
      rw [hrowspec i q ps h1 e1] at hi
      cases hi
      have hw := h.cols q (List.mem_of_getElem? h1)
      rw [(splitRow_spec (by omega)).1, e2, hw]
  · intro i j hj
    unfold Obj.elem?
    cases h1 : o.data[i]? with
    | none => rw [hout i h1]
    | some q =>
      obtain ⟨v, ps, _, _, e1, _, e2⟩ := hcell i q h1
      have hw := h.cols q (List.mem_of_getElem? h1)
      rw [hrowspec i q ps h1 e1]
      exact (splitRow_spec (by omega)).2.1 j hj
  · intro i j hj
    unfold Obj.elem?
    cases h1 : o.data[i]? with
    | none => rw [hout i h1]; rfl
    | some q =>
      obtain ⟨v, ps, _, _, e1, _, e2⟩ := hcell i q h1
      have hw := h.cols q (List.mem_of_getElem? h1)
      rw [hrowspec i q ps h1 e1]
      have := (splitRow_spec (ps := ps) (show f < q.length by omega)).2.2.1 j hj
      rw [e2] at this
      exact this
  · intro i v hv
    cases h1 : o.data[i]? with
    | none => unfold Obj.elem? at hv; rw [h1] at hv; cases hv
    | some q =>
      obtain ⟨v', ps, _, e0, e1, e3, e2⟩ := hcell i q h1
      rw [hv] at e0
      cases e0
      have hw := h.cols q (List.mem_of_getElem? h1)
      refine ⟨ps, e3, e2, fun t ht => ?_⟩
      unfold Obj.elem?
      rw [hrowspec i q ps h1 e1]
      exact (splitRow_spec (by omega)).2.2.2 t (by omega)

/-- The feature names after the split. -/
def newNames (old : List (Option String)) (f : Nat) (new : List (Option String)) : List (Option String) :=
  old.take f ++ new ++ old.drop (f + 1)

theorem newNames_length {old new : List (Option String)} {f : Nat} (hf : f < old.length) :
    (newNames old f new).length = old.length - 1 + new.length := by
  unfold newNames; simp; omega

theorem split_cases (T : TextOps V) {o : Obj V} (h : o.WF) {id : Ident} {f : Nat}
    (hid : o.fts.getIndex id = .ok (f : Int)) (hf : f < o.fts.len) (rule : Rule V) (names : List (Option String)) :
    (∃ e, mapRes (splitOne T rule names.length) (o.vector .feature f) = .error e ∧
      splitByParsing T o id rule names = (o, .error e)) ∨
    (∃ l, mapRes (splitOne T rule names.length) (o.vector .feature f) = .ok l ∧
      ((newNames o.fts.getNames f names).reduceOption.Nodup ∧
        splitByParsing T o id rule names = (⟨List.zipWith (splitRow f) o.data l, o.pts,
          ⟨o.fts.len - 1 + names.length, some ⟨namedPairs 0 (newNames o.fts.getNames f names), newNames o.fts.getNames f names⟩⟩⟩, .ok ()) ∨
       ¬ (newNames o.fts.getNames f names).reduceOption.Nodup ∧
        splitByParsing T o id rule names = (⟨List.zipWith (splitRow f) o.data l, o.pts,
          ⟨o.fts.len - 1 + names.length, o.fts.touch.tbl⟩⟩, .error .InvalidArgumentValue))) := by
  unfold splitByParsing
  rw [hid]
  simp only [Int.toNat_natCast]
  cases hm : mapRes (splitOne T rule names.length) (o.vector .feature f) with
  | error e => exact Or.inl ⟨e, rfl, rfl⟩
  | ok l =>
    right
    refine ⟨l, rfl, ?_⟩
    dsimp only
    have hlen := newNames_length (new := names) (show f < o.fts.getNames.length by rw [h.fts.length_getNames]; exact hf)
    rw [h.fts.length_getNames] at hlen
    rw [show splitNames o.fts.getNames f names = newNames o.fts.getNames f names from rfl, setNames_list_eq]
    by_cases hn : (newNames o.fts.getNames f names).reduceOption.Nodup
    · rw [if_pos ⟨hlen, hn⟩]
      exact Or.inl ⟨hn, rfl⟩
    · rw [if_neg (fun x => hn x.2)]
      exact Or.inr ⟨hn, rfl⟩

/-- **C92 (what a split does).**  After a successful `splitByParsing` the features before and after the split one are
unchanged, with their names; the feature itself is replaced, for every point, by the parts of its value in their order,
named as asked; the points are the same. -/
theorem C92_split (T : TextOps V) {o r : Obj V} (h : o.WF) {id : Ident} {rule : Rule V} {names : List (Option String)}
    (hr : splitByParsing T o id rule names = (r, .ok ())) :
    ∃ f : Nat, o.fts.getIndex id = .ok (f : Int) ∧ f < o.fts.len ∧ r.WF ∧
      SplitData T rule f names.length o r ∧ r.fts.len = o.fts.len - 1 + names.length ∧
      r.fts.getNames = newNames o.fts.getNames f names := by
  cases hid : o.fts.getIndex id with
  | error e => unfold splitByParsing at hr; rw [hid] at hr; cases hr
  | ok j =>
    obtain ⟨b1, b2⟩ := C04_getIndex_valid h.fts hid
    obtain ⟨f, rfl⟩ := Int.eq_ofNat_of_zero_le b1
    have hf : f < o.fts.len := by omega
    refine ⟨f, rfl, hf, ?_⟩
    rcases split_cases T h hid hf rule names with ⟨e, _, e2⟩ | ⟨l, hl, ⟨hn, e2⟩ | ⟨hn, e2⟩⟩
    · rw [e2] at hr; cases hr
    · rw [e2] at hr
      cases hr
      have hlen := newNames_length (new := names) (show f < o.fts.getNames.length by rw [h.fts.length_getNames]; exact hf)
      rw [h.fts.length_getNames] at hlen
      have sd := splitData_of h hf hl ⟨o.fts.len - 1 + names.length, some ⟨namedPairs 0 (newNames o.fts.getNames f names), newNames o.fts.getNames f names⟩⟩
      exact ⟨⟨sd.rows, sd.width, h.pts, mk_ok hlen hn⟩, sd, rfl, rfl⟩
    · rw [e2] at hr; cases hr

/-- **C92 (what is accepted), the rules that keep their promise.**  For a text, an integer, a function, and a list of
one-character texts, the split succeeds exactly if the identifier is a feature, the rule splits the value of every point
into as many parts as there are names, and the names that result are all different. -/
theorem C92_accepted_partial (T : TextOps V) {o : Obj V} (h : o.WF) (id : Ident) {rule : Rule V} (hp : Plain rule)
    (names : List (Option String)) :
    (splitByParsing T o id rule names).2 = .ok () ↔ ∃ f : Nat, o.fts.getIndex id = .ok (f : Int) ∧
      (∀ (i : Nat) v, o.elem? i f = some v → ∃ ps, SplitsTo T rule v ps ∧ ps.length = names.length) ∧
      (newNames o.fts.getNames f names).reduceOption.Nodup := by
  constructor
  · intro hr
    obtain ⟨f, h1, h2, h3, h4, h5, h6⟩ := C92_split T h (r := (splitByParsing T o id rule names).1)
      (show _ = (_, _) by rw [← hr])
    refine ⟨f, h1, fun i v hv => ?_, ?_⟩
    · obtain ⟨ps, g1, g2, _⟩ := h4.parts i v hv
      exact ⟨ps, (splitValue_iff hp).1 g1, g2⟩
    · rw [← h6]; exact h3.fts.reduceOption_nodup
  · rintro ⟨f, h1, h2, h3⟩
    have hf : f < o.fts.len := by
      have := (C04_getIndex_valid h.fts h1).2; omega
    rcases split_cases T h h1 hf rule names with ⟨e, e1, e2⟩ | ⟨l, hl, ⟨hn, e2⟩ | ⟨hn, e2⟩⟩
    · exfalso
      obtain ⟨r, hr⟩ := ConvType.mapRes_total (f := splitOne T rule names.length) (l := o.vector .feature f) (by
        intro v hv
        obtain ⟨i, hi⟩ := List.mem_iff_getElem?.1 hv
        rw [column_at h hf] at hi
        obtain ⟨ps, g1, g2⟩ := h2 i v hi
        exact ⟨ps, splitOne_ok.2 ⟨(splitValue_iff hp).2 g1, g2⟩⟩)
      rw [hr] at e1; cases e1
    · rw [e2]
    · exact absurd h3 hn

/-- **C92 (the parts).**  For the `Plain` rules, in `C92_split` the parts of a value are what the rule says: `SplitsTo`. -/
theorem C92_parts (T : TextOps V) {rule : Rule V} (hp : Plain rule) (v : V) (ps : List V) :
    splitValue T rule v = .ok ps ↔ SplitsTo T rule v ps := splitValue_iff hp

/-- **C92 (a list of places).**  A list of integers and one-character texts, if the value can be divided by it from left
to right, divides it so. -/
theorem C92_items (T : TextOps V) {l : List Item} (hl : ∀ it ∈ l, OneChar it ∨ ∃ i, it = .pos i) {v : V} {ps : List V}
    (h : SplitsTo T (.items l) v ps) : splitValue T (.items l) v = .ok ps := by
  obtain ⟨w, qs, h1, h2, rfl⟩ := h
  have := woven_items l [] w qs hl h2
  simp only [List.nil_append, List.length_nil, Nat.cast_zero] at this
  simp only [splitValue, (needText_iff (e := .TypeError)).2 h1, this, bind, Except.bind, pure, Except.pure]

/-- **C92 (a refusal for the values).**  If the identifier is wrong or some value does not split into the right number of
parts, the object is as before. -/
theorem C92_refused_unchanged (T : TextOps V) {o : Obj V} (h : o.WF) (id : Ident) (rule : Rule V)
    (names : List (Option String)) {e : Err} (hr : (splitByParsing T o id rule names).2 = .error e)
    (hbad : ∀ f : Nat, o.fts.getIndex id = .ok (f : Int) →
      ∃ (i : Nat) (v : V), o.elem? i f = some v ∧ ∀ ps, splitValue T rule v = .ok ps → ps.length ≠ names.length) :
    (splitByParsing T o id rule names).1 = o := by
  cases hid : o.fts.getIndex id with
  | error e => unfold splitByParsing; rw [hid]
  | ok j =>
    obtain ⟨b1, b2⟩ := C04_getIndex_valid h.fts hid
    obtain ⟨f, rfl⟩ := Int.eq_ofNat_of_zero_le b1
    have hf : f < o.fts.len := by omega
    rcases split_cases T h hid hf rule names with ⟨e, _, e2⟩ | ⟨l, hl, _⟩
    · rw [e2]
    · exfalso
      obtain ⟨i, v, hv, hno⟩ := hbad f hid
      obtain ⟨ps, g1, g2, _⟩ := (splitData_of h hf hl o.fts).parts i v hv
      exact hno ps g1 g2

/-! ## Where the code breaks the promise -/

/-- **C92 violated: a name that is taken.**  If a new name is already the name of another feature (or occurs twice) the
call is refused, but only after the data have been replaced: the object has the new data, claims the new number of
features and has still the names of the old features. -/
theorem C92_taken_name_violated (T : TextOps V) {o : Obj V} (h : o.WF) {id : Ident} {f : Nat}
    (hid : o.fts.getIndex id = .ok (f : Int)) {rule : Rule V} {names : List (Option String)}
    (hv : ∀ (i : Nat) v, o.elem? i f = some v → ∃ ps, splitValue T rule v = .ok ps ∧ ps.length = names.length)
    (hn : ¬ (newNames o.fts.getNames f names).reduceOption.Nodup) :
    (splitByParsing T o id rule names).2 = .error .InvalidArgumentValue ∧
      SplitData T rule f names.length o (splitByParsing T o id rule names).1 ∧
      (splitByParsing T o id rule names).1.fts.len = o.fts.len - 1 + names.length ∧
      (splitByParsing T o id rule names).1.fts.getNames = o.fts.getNames ∧
      (names.length ≠ 1 → ¬ (splitByParsing T o id rule names).1.WF) := by
  have hf : f < o.fts.len := by
    have := (C04_getIndex_valid h.fts hid).2; omega
  obtain ⟨l0, hl0⟩ := ConvType.mapRes_total (f := splitOne T rule names.length) (l := o.vector .feature f) (by
    intro v hv'
    obtain ⟨i, hi⟩ := List.mem_iff_getElem?.1 hv'
    rw [column_at h hf] at hi
    obtain ⟨ps, g1, g2⟩ := hv i v hi
    exact ⟨ps, splitOne_ok.2 ⟨g1, g2⟩⟩)
  rcases split_cases T h hid hf rule names with ⟨e, e1, e2⟩ | ⟨l, hl, ⟨hn', e2⟩ | ⟨_, e2⟩⟩
  · rw [hl0] at e1; cases e1
  · exact absurd hn' hn
  · rw [e2]
    have hg : (⟨o.fts.len - 1 + names.length, o.fts.touch.tbl⟩ : AxisSt).getNames = o.fts.getNames := by
      cases ht : o.fts.tbl <;> simp [AxisSt.touch, AxisSt.getNames, ht, defaultTable]
    refine ⟨rfl, splitData_of h hf hl _, rfl, hg, fun hk hw => ?_⟩
    have := hw.fts.length_getNames
    rw [hg, h.fts.length_getNames] at this
    dsimp only at this
    omega

/-- **C92 violated: a list with longer texts.**  As an item of a list a separator of two or more characters is only cut
off by one character: the next part begins with what is left of it. -/
theorem C92_list_separator_violated (T : TextOps V) {s : Txt} (hs : 2 ≤ s.length) {v : V} {w p rest : Txt}
    (hw : T.asText v = some w) (hc : FirstCut s w p rest) :
    splitValue T (.items [.text s]) v = .ok [T.ofText p, T.ofText (s.tail ++ rest)] ∧
      (¬ s <:+: rest → splitValue T (.text s) v = .ok [T.ofText p, T.ofText rest]) := by
  have hne : s ≠ [] := by rintro rfl; simp at hs
  constructor
  · have h1 : textFrom w 0 = w := by
      unfold textFrom; rw [show (0 : Int) = ((0 : Nat) : Int) from rfl, bound_nat _ _ (by omega)]; rfl
    have h2 : textTo w 0 = [] := by
      unfold textTo; rw [show (0 : Int) = ((0 : Nat) : Int) from rfl, bound_nat _ _ (by omega)]; rfl
    have h3 : itemStep w 0 (.text s) = .ok (p, ((p.length + 1 : Nat) : Int)) := by
      rw [itemStep_text _ _ hne, h1, h2, findText_cut hc]
      have : w.take p.length = p := by rw [hc.1, List.append_assoc]; simp
      simp only [this]
      congr 2
    have h4 : textFrom w ((p.length + 1 : Nat) : Int) = s.tail ++ rest := by
      unfold textFrom
      rw [bound_nat _ _ (by rw [hc.1]; simp; omega), hc.1, List.append_assoc, List.drop_append, List.drop_of_length_le (by omega)]
      cases s with
      | nil => exact absurd rfl hne
      | cons c s => simp
    simp only [splitValue, (needText_iff (e := .TypeError)).2 hw, splitItems, h3, h4, bind, Except.bind, pure, Except.pure,
      List.map_cons, List.map_nil]
  · intro hr
    exact (splitValue_iff (rule := .text s) trivial).2 ⟨w, [p, rest], hw, hne, ⟨rest, hc, rfl, hr⟩, rfl⟩

/-- **C92 violated: places out of order.**  An integer before the place already reached repeats characters that belong
to the part before it, and one beyond the end of the value gives empty parts; neither is refused. -/
theorem C92_places_violated (T : TextOps V) {v : V} (hv : T.asText v = some ['a', 'b', 'c', 'd']) :
    splitValue T (.items [.pos 3, .pos 1]) v = .ok [T.ofText ['a', 'b', 'c'], T.ofText [], T.ofText ['b', 'c', 'd']] ∧
      splitValue T (.items [.pos 9]) v = .ok [T.ofText ['a', 'b', 'c', 'd'], T.ofText []] := by
  constructor <;>
  · simp only [splitValue, (needText_iff (e := .TypeError)).2 hv, bind, Except.bind, pure, Except.pure]
    rfl

/-! ## `Sparse` -/

open Sp in
theorem mem_columnEnts {col : Nat} {vals : List V} {e : Ent V} :
    e ∈ columnEnts col vals ↔ e.col = col ∧ vals[e.row]? = some e.val := by
  unfold columnEnts
  rw [List.mem_mapIdx]
  constructor
  · rintro ⟨i, hi, rfl⟩
    exact ⟨rfl, List.getElem?_eq_getElem hi⟩
  · rintro ⟨rfl, h⟩
    obtain ⟨hi, he⟩ := List.getElem?_eq_some_iff.1 h
    exact ⟨e.row, hi, by rw [he]⟩

open Sp in
theorem mem_splitEnts {K : KindOps V} {f : Nat} {l : List (List V)} : ∀ {ts : List Nat} {e : Ent V},
    e ∈ splitEnts K f l ts ↔ ∃ t ∈ ts, e.col = f + t ∧ (asArray K (partsAt l t))[e.row]? = some e.val := by
  intro ts
  induction ts with
  | nil => intro e; simp [splitEnts]
  | cons t ts ih =>
    intro e
    simp only [splitEnts, List.mem_append, mem_columnEnts, ih, List.mem_cons, exists_eq_or_imp]

theorem partsAt_get {l : List (List V)} {k t : Nat} (hl : ∀ ps ∈ l, ps.length = k) (ht : t < k) (i : Nat) :
    (partsAt l t)[i]? = (l[i]?).bind (·[t]?) := by
  unfold partsAt
  exact getElem?_filterMap_col (by intro ps hps; rw [hl ps hps]; exact ht) i

open Sp in
theorem columnEnts_nodup (col : Nat) (vals : List V) : ((columnEnts col vals).map Ent.pos).Nodup := by
  unfold columnEnts
  rw [List.nodup_iff_getElem?_ne_getElem?]
  intro i j hij hj
  simp only [List.length_map, List.length_mapIdx] at hj
  simp only [List.getElem?_map, List.getElem?_mapIdx]
  rw [List.getElem?_eq_getElem (by omega), List.getElem?_eq_getElem hj]
  simp only [Option.map_some, Ent.pos, ne_eq, Option.some.injEq, Prod.mk.injEq, not_and]
  intro h; omega

open Sp in
theorem splitEnts_nodup {K : KindOps V} {f : Nat} {l : List (List V)} : ∀ {ts : List Nat}, ts.Nodup →
    ((splitEnts K f l ts).map Ent.pos).Nodup := by
  intro ts
  induction ts with
  | nil => intro _; simp [splitEnts]
  | cons t ts ih =>
    intro hn
    rw [List.nodup_cons] at hn
    simp only [splitEnts, List.map_append]
    rw [List.nodup_append]
    refine ⟨columnEnts_nodup _ _, ih hn.2, ?_⟩
    intro a ha b hb hab
    subst hab
    rw [List.mem_map] at ha hb
    obtain ⟨e, he, rfl⟩ := ha
    obtain ⟨e', he', hee⟩ := hb
    obtain ⟨t', ht', hc, _⟩ := mem_splitEnts.1 he'
    have h1 := (mem_columnEnts.1 he).1
    simp only [Ent.pos, Prod.mk.injEq] at hee
    have : t' = t := by omega
    subst this
    exact hn.1 ht'

open Sp in
/-- The new place of an old entry. -/
def moved (f k j : Nat) : Nat := if f < j then j + k - 1 else j

open Sp in
theorem mem_keptEnts {f k : Nat} {ents : List (Ent V)} {e : Ent V} :
    e ∈ keptEnts f k ents ↔ ∃ j, j ≠ f ∧ e.col = moved f k j ∧ (⟨e.row, j, e.val⟩ : Ent V) ∈ ents := by
  unfold keptEnts
  rw [List.mem_map]
  constructor
  · rintro ⟨x, hx, rfl⟩
    rw [List.mem_filter] at hx
    refine ⟨x.col, by simpa using hx.2, ?_, ?_⟩
    · unfold moved; split <;> rfl
    · split <;> exact hx.1
  · rintro ⟨j, hj, hc, hm⟩
    refine ⟨_, List.mem_filter.2 ⟨hm, by simpa using hj⟩, ?_⟩
    unfold moved at hc
    obtain ⟨r, c, v⟩ := e
    dsimp only at hc ⊢
    split
    · next h => rw [if_pos h] at hc; rw [hc]
    · next h => rw [if_neg h] at hc; rw [hc]

theorem moved_inj {f k j j' : Nat} (hj : j ≠ f) (hj' : j' ≠ f) (h : moved f k j = moved f k j') : j = j' := by
  unfold moved at h
  split at h <;> split at h <;> omega

theorem moved_out {f k j t : Nat} (hj : j ≠ f) (ht : t < k) : moved f k j ≠ f + t := by
  unfold moved
  split <;> omega

open Sp in
theorem keptEnts_nodup {f k : Nat} {ents : List (Ent V)} (h : (ents.map Ent.pos).Nodup) :
    ((keptEnts f k ents).map Ent.pos).Nodup := by
  unfold keptEnts
  rw [List.map_map]
  have h1 : (ents.filter (fun e => decide (e.col ≠ f))).Nodup := (List.Nodup.of_map _ h).filter _
  refine (List.nodup_map_iff_inj_on h1).2 ?_
  intro x hx y hy hxy
  rw [List.mem_filter] at hx hy
  have e1 : ∀ z : Ent V, Ent.pos (if f < z.col then { z with col := z.col + k - 1 } else z) = (z.row, moved f k z.col) := by
    intro z; unfold moved Ent.pos; split <;> rfl
  simp only [Function.comp, e1, Prod.mk.injEq] at hxy
  have hc := moved_inj (by simpa using hx.2) (by simpa using hy.2) hxy.2
  exact List.inj_on_of_nodup_map h hx.1 hy.1 (by simp [Ent.pos, hxy.1, hc])

open Sp in
/-- **C92 (`Sparse`).**  With stored values of `object` type and parts that are texts (or no texts among them), `Sparse`
holds the same elements as the dense representations: the other features moved, the parts in between; the positions are
distinct and in range. -/
theorem C92_sparse_partial [Zero V] (K : KindOps V) {c : Coo V} (hc : c.Core) {f k : Nat} (hf : f < c.cols)
    {l : List (List V)} (hl : l.length = c.rows) (hk : ∀ ps ∈ l, ps.length = k)
    (harr : ∀ t, t < k → asArray K (partsAt l t) = partsAt l t) :
    let r := splitSparse K c f l k
    r.rows = c.rows ∧ r.cols = c.cols - 1 + k ∧ (r.ents.map Ent.pos).Nodup ∧
      (∀ e ∈ r.ents, e.row < r.rows ∧ e.col < r.cols) ∧
      (∀ i j, j < f → r.at i j = c.at i j) ∧
      (∀ i j, f < j → r.at i (j + k - 1) = c.at i j) ∧
      ∀ (i t : Nat) ps v, l[i]? = some ps → ps[t]? = some v → r.at i (f + t) = v := by
  intro r
  have hents : r.ents = keptEnts f k c.ents ++ splitEnts K f l (List.range k) := rfl
  have hnd : (r.ents.map Ent.pos).Nodup := by
    rw [hents, List.map_append, List.nodup_append]
    refine ⟨keptEnts_nodup hc.nodup, splitEnts_nodup List.nodup_range, ?_⟩
    intro a ha b hb hab
    subst hab
    rw [List.mem_map] at ha hb
    obtain ⟨e, he, rfl⟩ := ha
    obtain ⟨e', he', hee⟩ := hb
    obtain ⟨j, hj, hcol, _⟩ := mem_keptEnts.1 he
    obtain ⟨t, ht, hcol', _⟩ := mem_splitEnts.1 he'
    simp only [Ent.pos, Prod.mk.injEq] at hee
    exact moved_out hj (List.mem_range.1 ht) (by omega)
  have hold : ∀ i j, j ≠ f → r.at i (moved f k j) = c.at i j := by
    intro i j hj
    refine Coo.at_eq hnd hc.nodup ?_
    intro v
    rw [hents, List.mem_append, mem_keptEnts, mem_splitEnts]
    constructor
    · rintro (⟨j', hj', h1, h2⟩ | ⟨t, ht, h1, _⟩)
      · rw [moved_inj hj hj' h1]; exact h2
      · exact absurd h1 (moved_out hj (List.mem_range.1 ht))
    · intro h
      exact Or.inl ⟨j, hj, rfl, h⟩
  refine ⟨rfl, rfl, hnd, ?_, ?_, ?_, ?_⟩
  · intro e he
    rw [hents, List.mem_append, mem_keptEnts, mem_splitEnts] at he
    rcases he with ⟨j, hj, h1, h2⟩ | ⟨t, ht, h1, h2⟩
    · have r1 := hc.row_lt _ h2
      have r2 := hc.col_lt _ h2
      dsimp only at r1 r2
      refine ⟨r1, ?_⟩
      show e.col < c.cols - 1 + k
      rw [h1]; unfold moved; split <;> omega
    · have ht' := List.mem_range.1 ht
      rw [harr t ht', partsAt_get hk ht'] at h2
      refine ⟨?_, ?_⟩
      · show e.row < c.rows
        rw [← hl]
        cases hx : l[e.row]? with
        | none => rw [hx] at h2; cases h2
        | some ps => exact (List.getElem?_eq_some_iff.1 hx).1
      · show e.col < c.cols - 1 + k
        omega
  · intro i j hj
    have := hold i j (by omega)
    rwa [show moved f k j = j by unfold moved; rw [if_neg (by omega)]] at this
  · intro i j hj
    have := hold i j (by omega)
    rwa [show moved f k j = j + k - 1 by unfold moved; rw [if_pos hj]] at this
  · intro i t ps v h1 h2
    have hp := hk ps (List.mem_of_getElem? h1)
    have ht : t < k := by rw [← hp]; exact (List.getElem?_eq_some_iff.1 h2).1
    have hm : (⟨i, f + t, v⟩ : Ent V) ∈ r.ents := by
      rw [hents, List.mem_append, mem_splitEnts]
      refine Or.inr ⟨t, List.mem_range.2 ht, rfl, ?_⟩
      rw [harr t ht, partsAt_get hk ht]
      show (l[i]?).bind (·[t]?) = some v
      rw [h1]; exact h2
    exact Coo.at_of_mem hnd hm

/-- **C92 violated: `Sparse` numbers.**  If the stored values are numbers and the rule (a function) returns a text, every
other number of the object becomes a text as well. -/
theorem C92_sparse_numbers_violated (K : KindOps V) {f k : Nat} {c : Sp.Coo V} {new : List V}
    (h : new.any K.isText = true) :
    firstConcat K .number f k c new = ((keptEnts f k c.ents).map (fun e => K.toText e.val)) ++ asArray K new := by
  unfold firstConcat concat
  rw [if_pos ⟨rfl, h⟩, List.map_map]
  rfl

/-! ## Concrete cases -/

/-- Cells as values. -/
def cellText : TextOps Cell := ⟨fun c => c.asStr.map String.toList, fun s => .str (String.ofList s)⟩

/-- The documented example. -/
def locations : Obj Cell :=
  ⟨[[.str "Lima, Peru", .num 1], [.str "Moscow, Russia", .num 2]], ⟨2, none⟩,
    ⟨2, some ⟨[("location", 0), ("n", 1)], [some "location", some "n"]⟩⟩⟩

example : (splitByParsing cellText locations (.str "location") (.text [',', ' ']) [some "city", some "country"]).1.data =
    [[.str "Lima", .str "Peru", .num 1], [.str "Moscow", .str "Russia", .num 2]] := by decide +kernel

example : (splitByParsing cellText locations (.str "location") (.text [',', ' ']) [some "city", some "country"]).2 = .ok () := by
  decide +kernel

/-- The same separator in a list leaves a blank before the country. -/
example : (splitByParsing cellText locations (.str "location") (.items [.text [',', ' ']]) [some "city", some "country"]).1.data =
    [[.str "Lima", .str " Peru", .num 1], [.str "Moscow", .str " Russia", .num 2]] := by decide +kernel

/-- A name that is taken: refused, but the data are replaced. -/
example : (splitByParsing cellText locations (.str "location") (.text [',', ' ']) [some "city", some "n"]).2 =
      .error .InvalidArgumentValue ∧
    (splitByParsing cellText locations (.str "location") (.text [',', ' ']) [some "city", some "n"]).1.data =
      [[.str "Lima", .str "Peru", .num 1], [.str "Moscow", .str "Russia", .num 2]] := by
  constructor <;> decide +kernel

end Nimble.Parse
