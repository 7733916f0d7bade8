import Verif.Model.CalcElements
import Verif.Props.Elements
import Verif.Lemmas.Targets

/-!
# C86: calculateOnElements, matchingElements and countElements
-/

namespace Nimble.Elements
open Nimble.Match Nimble.LearnFill Nimble.Obj

/-! ## Specification -/

/-- The points (features) given, in their order; a list names at least one. -/
def Selects (a : AxisSt) (lim : Limit) (ps : List Nat) : Prop :=
  (lim = .all ∧ ps = List.range a.len) ∨
  ∃ ids, lim.idents = some ids ∧ ids ≠ [] ∧ ids.map (fun id => a.getIndex id) = ps.map (fun (i : Nat) => .ok (i : Int))

/-- What the function gives for each element in the points `ps` and the features `fs`. -/
def NewRows (fn : Fn) (preserveZeros skipNone : Bool) (o : Obj Val) (ps fs : List Nat) (rows : List (List Val)) : Prop :=
  List.Forall₂ (fun i row => List.Forall₂ (fun j w => ∃ v, o.elem? i j = some v ∧ NewValue fn preserveZeros skipNone v i j w)
    fs row) ps rows

/-- `r` is an object without names with these elements. -/
structure Shows (r : Obj Val) (rows : List (List Val)) (nP nF : Nat) : Prop where
  wf : r.WF
  plen : r.pts.len = nP
  flen : r.fts.len = nF
  pnames : r.pts.getNames = List.replicate nP none
  fnames : r.fts.getNames = List.replicate nF none
  elems : ∀ (i j : Nat), (r.elem? i j).map canon = (rows[i]?.bind (fun row => row[j]?)).map canon

/-- The values are all booleans, all integers, all floats, all strings or all `None`. -/
def OneType (rows : List (List Val)) : Prop :=
  (∀ r ∈ rows, ∀ w ∈ r, ∃ np b, w = .bool np b) ∨ (∀ r ∈ rows, ∀ w ∈ r, ∃ np i, w = .int np i) ∨
  (∀ r ∈ rows, ∀ w ∈ r, ∃ np f, w = .flt np f) ∨ (∀ r ∈ rows, ∀ w ∈ r, ∃ s, w = .str s) ∨
  ∀ r ∈ rows, ∀ w ∈ r, w = .none

/-- The first row looks like names above a table. -/
def UnderHeader (str : Val → String) (rows : List (List Val)) : Prop :=
  ∃ first second rest, rows = first :: second :: rest ∧ Header (valOps str) first second

/-- What the function says about the value: true (1, 1.0) or false (0, 0.0). -/
def Matcher.Says (m : Matcher) (v : Val) (i j : Nat) (b : Bool) : Prop :=
  ∃ r, canon r = .num (.fin (if b then 1 else 0)) ∧ match m with | .one f => f v = .ok r | .three f => f v i j = .ok r

/-- A function of three arguments must be defined at (0, 0, 0). -/
def Matcher.Defined (m : Matcher) : Prop := ∀ f, m = .three f → ∃ r, f (.int false 0) 0 0 = .ok r

/-- The names of the result are the names of the chosen points (features). -/
def NamesOf (a a' : AxisSt) (ps : List Nat) : Prop := ∀ (k i : Nat), ps[k]? = some i → a'.getNames[k]? = a.getNames[i]?

/-! ## Lemmas -/

theorem mapRes_iff {A B : Type} (f : A → Res B) : ∀ (l : List A) (r : List B),
    mapRes f l = .ok r ↔ List.Forall₂ (fun a b => f a = .ok b) l r
  | [], r => by
    simp only [mapRes]
    cases r <;> simp
  | a :: as, r => by
    simp only [mapRes, bind, Except.bind, pure, Except.pure]
    cases hf : f a with
    | error e =>
      constructor
      · intro h; cases h
      · intro h
        cases h with
        | cons h1 _ => rw [hf] at h1; cases h1
    | ok b =>
      dsimp only
      cases hm : mapRes f as with
      | error e =>
        constructor
        · intro h; cases h
        · intro h
          cases h with
          | cons _ h2 => rw [← mapRes_iff f as, hm] at h2; cases h2
      | ok bs =>
        dsimp only
        constructor
        · intro h
          cases h
          exact .cons hf ((mapRes_iff f as bs).mp hm)
        · intro h
          cases h with
          | cons h1 h2 =>
            rw [hf] at h1
            rw [← mapRes_iff f as, hm] at h2
            cases h1
            cases h2
            rfl

theorem calcAt_iff {g : Val → Nat → Nat → Res Val} {o : Obj Val} {i j : Nat} {w : Val} :
    calcAt g o i j = .ok w ↔ ∃ v, o.elem? i j = some v ∧ g v i j = .ok w := by
  unfold calcAt
  cases o.elem? i j <;> simp

theorem forall₂_imp' {A B : Type} {R S : A → B → Prop} (h : ∀ a b, R a b → S a b) {l : List A} {r : List B}
    (hr : List.Forall₂ R l r) : List.Forall₂ S l r := List.Forall₂.imp h hr

theorem validated_iff {fn : Fn} {pz sk : Bool} {v w : Val} {i j : Nat} :
    fn.validated pz sk v i j = .ok w ↔ NewValue fn pz sk v i j w := ⟨validated_new, validated_of_new⟩

/-- Anything a function gives. -/
theorem calcRows_iff {g : Val → Nat → Nat → Res Val} {o : Obj Val} {ps fs : List Nat} {rows : List (List Val)} :
    calcRows g o ps fs = .ok rows ↔ List.Forall₂ (fun i row =>
      List.Forall₂ (fun j w => ∃ v, o.elem? i j = some v ∧ g v i j = .ok w) fs row) ps rows := by
  unfold calcRows
  rw [mapRes_iff]
  have : ∀ i row, mapRes (fun j => calcAt g o i j) fs = .ok row ↔
      List.Forall₂ (fun j w => ∃ v, o.elem? i j = some v ∧ g v i j = .ok w) fs row := by
    intro i row
    rw [mapRes_iff]
    simp only [calcAt_iff]
  simp only [this]

theorem calcRows_new {fn : Fn} {pz sk : Bool} {o : Obj Val} {ps fs : List Nat} {rows : List (List Val)} :
    calcRows (fn.validated pz sk) o ps fs = .ok rows ↔ NewRows fn pz sk o ps fs rows := by
  rw [calcRows_iff]
  unfold NewRows
  simp only [validated_iff]

theorem forall₂_shape {A B C : Type} {R : A → C → B → Prop} {ps : List A} {fs : List C} {rows : List (List B)}
    (h : List.Forall₂ (fun i row => List.Forall₂ (R i) fs row) ps rows) :
    rows.length = ps.length ∧ ∀ r ∈ rows, r.length = fs.length := by
  induction h with
  | nil => simp
  | cons h1 h2 ih =>
    refine ⟨by simp [ih.1], ?_⟩
    intro r hr
    rcases List.mem_cons.mp hr with rfl | hr
    · exact h1.length_eq.symm
    · exact ih.2 r hr

theorem canon_rows {rows rows' : List (List Val)}
    (h : List.Forall₂ (List.Forall₂ (fun v w => canon w = canon v)) rows rows') (i j : Nat) :
    (rows'[i]?.bind (fun row => row[j]?)).map canon = (rows[i]?.bind (fun row => row[j]?)).map canon := by
  have inner : ∀ {r r' : List Val}, List.Forall₂ (fun v w => canon w = canon v) r r' → ∀ (j : Nat),
      (r'[j]?).map canon = (r[j]?).map canon := by
    intro r r' h
    induction h with
    | nil => intro j; rfl
    | cons h1 h2 ih =>
      intro j
      cases j with
      | zero => simp [h1]
      | succ j => simpa using ih j
  induction h generalizing i with
  | nil => rfl
  | cons h1 h2 ih =>
    cases i with
    | zero => simpa using inner h1 j
    | succ i => simpa using ih i

theorem newObject_shows {str : Val → String} {nP nF : Nat} {rows : List (List Val)} (hl : rows.length = nP)
    (hr : ∀ r ∈ rows, r.length = nF) (hh : ¬ UnderHeader str rows) :
    ∃ r, newObject str nP nF rows = .ok r ∧ Shows r rows nP nF := by
  subst hl
  have hwf : (⟨rows, ⟨rows.length, none⟩, ⟨nF, none⟩⟩ : Obj Val).WF :=
    ⟨rfl, hr, none_ok _, none_ok _⟩
  unfold newObject
  by_cases hz : rows.length = 0 ∨ nF = 0
  · rw [if_pos hz]
    exact ⟨_, rfl, hwf, rfl, rfl, rfl, rfl, fun _ _ => rfl⟩
  · rw [if_neg hz]
    have hne : rows ≠ [] := by
      rintro rfl
      exact hz (.inl rfl)
    obtain ⟨r, h1, h2⟩ := C53_data_automatic_no_header (valOps str) (rows := rows) (n := nF) (by omega) hne
      hr (fun first second rest he hH => hh ⟨first, second, rest, he, hH⟩)
    refine ⟨r, h1, h2.wf, ?_, h2.fts, ?_, h2.fnames, ?_⟩
    · rw [← h2.wf.rows, h2.data, List.length_map]
    · rw [h2.pnames]; simp
    · intro i j
      have : r.elem? i j = ((⟨rows, ⟨rows.length, none⟩, ⟨nF, none⟩⟩ : Obj Val).elem? i j).map (valOps str).stored := by
        rw [← elem_map]
        simp only [Obj.elem?, h2.data]
      rw [this]
      simp only [Obj.elem?]
      cases (rows[i]?.bind fun r => r[j]?) with
      | none => rfl
      | some v => simp [canon_stored]

theorem autoDetect_plain {str : Val → String} {rows : List (List Val)} (hh : ¬ UnderHeader str rows) :
    autoDetect (valOps str) .auto .auto rows = (false, false) := by
  unfold autoDetect
  split
  · next f fs s ss rest =>
    have h : ¬ looksLikeHeader (valOps str) .auto (f :: fs) (s :: ss) = true := by
      rw [looksLikeHeader_iff]
      exact fun hc => hh ⟨_, _, _, rfl, hc⟩
    simp [h]
  · rfl

theorem newFrameObject_shows {str : Val → String} {nP nF : Nat} {rows : List (List Val)} (hl : rows.length = nP)
    (hr : ∀ r ∈ rows, r.length = nF) (hh : ¬ UnderHeader str rows) :
    ∃ r, newFrameObject str nP nF rows = .ok r ∧ Shows r rows nP nF := by
  subst hl
  unfold newFrameObject
  rw [autoDetect_plain hh]
  simp only [ite_self, Bool.false_eq_true, if_false, Obj.make, AxisSt.init, bind, Except.bind, pure, Except.pure]
  refine ⟨_, rfl, ⟨by simp [replaceMissing], ?_, none_ok _, none_ok _⟩, rfl, rfl, rfl, rfl, ?_⟩
  · intro r h
    simp only [replaceMissing, List.mem_map] at h
    obtain ⟨r', h1, rfl⟩ := h
    simpa using hr r' h1
  · intro i j
    have := elem_map (⟨rows, ⟨rows.length, none⟩, ⟨nF, none⟩⟩ : Obj Val) (valOps str).stored i j
    change (Obj.elem? ⟨rows.map (fun r => r.map (valOps str).stored), _, _⟩ i j).map canon = _
    simp only [Obj.elem?] at this ⊢
    rw [this]
    cases (rows[i]?.bind fun r => r[j]?) with
    | none => rfl
    | some v => simp [canon_stored]

theorem noText_plain {str : Val → String} {rows : List (List Val)} {n : Nat} (hr : ∀ r ∈ rows, r.length = n)
    (h : ∀ r ∈ rows, ∀ w ∈ r, ∀ s, w ≠ .str s) : ¬ UnderHeader str rows := by
  rintro ⟨first, second, rest, rfl, h1, _, v, hv, _⟩
  have l1 := hr first (by simp)
  have l2 := hr second (by simp)
  have hv2 : v ∈ second := List.mem_of_mem_drop hv
  have hn : ∀ w ∈ first, ∀ s, w ≠ .str s := h first (by simp)
  have hd : first.head?.bind (valOps str).asStr ≠ some "pointNames" := by
    intro hc
    cases first with
    | nil => cases hc
    | cons w ws =>
      have := hn w (by simp)
      cases w with
      | str s => exact this s rfl
      | _ => simp [valOps] at hc
  rw [if_neg hd] at h1
  cases first with
  | nil =>
    cases second with
    | nil => cases hv2
    | cons _ _ => simp at l1 l2; omega
  | cons w ws =>
    obtain ⟨s, hs⟩ := h1 w (by simp)
    have := hn w (by simp)
    cases w with
    | str s => exact this s rfl
    | _ => simp [valOps] at hs

theorem oneType_plain {str : Val → String} {rows : List (List Val)} {n : Nat} (hr : ∀ r ∈ rows, r.length = n)
    (h : OneType rows) : ¬ UnderHeader str rows := by
  rcases h with h | h | h | h | h
  · exact noText_plain hr (fun r hm w hw s hc => by obtain ⟨_, _, e⟩ := h r hm w hw; rw [e] at hc; cases hc)
  · exact noText_plain hr (fun r hm w hw s hc => by obtain ⟨_, _, e⟩ := h r hm w hw; rw [e] at hc; cases hc)
  · exact noText_plain hr (fun r hm w hw s hc => by obtain ⟨_, _, e⟩ := h r hm w hw; rw [e] at hc; cases hc)
  · rintro ⟨first, second, rest, rfl, h1, _, v, hv, h3⟩
    obtain ⟨s, rfl⟩ := h second (by simp) v (List.mem_of_mem_drop hv)
    simp [valOps] at h3
  · exact noText_plain hr (fun r hm w hw s hc => by rw [h r hm w hw] at hc; cases hc)

theorem mapM_forall₂ {A B : Type} {f : A → Option B} {R : A → B → Prop} : ∀ {l : List A},
    (∀ x ∈ l, ∃ y, f x = some y ∧ R x y) → ∃ r, l.mapM f = some r ∧ List.Forall₂ R l r
  | [], _ => ⟨[], rfl, .nil⟩
  | a :: as, h => by
    obtain ⟨y, h1, h2⟩ := h a (by simp)
    obtain ⟨r, h3, h4⟩ := mapM_forall₂ (l := as) (fun x hx => h x (by simp [hx]))
    exact ⟨y :: r, by simp [List.mapM_cons, h1, h3], .cons h2 h4⟩

theorem castTo_same (P : Conv) (w : Val) : ∃ w', castTo P (outType w) w = some w' ∧ canon w' = canon w ∧ outType w' = outType w := by
  cases w with
  | none => exact ⟨_, rfl, rfl, rfl⟩
  | bool np b => refine ⟨_, rfl, rfl, rfl⟩
  | int np i => exact ⟨_, rfl, rfl, rfl⟩
  | flt np f => cases f <;> exact ⟨_, rfl, rfl, rfl⟩
  | str s => exact ⟨_, rfl, rfl, rfl⟩

theorem oneType_iff (rows : List (List Val)) : OneType rows ↔ ∃ t, ∀ r ∈ rows, ∀ w ∈ r, outType w = t := by
  have key : ∀ w : Val, (outType w = .bool ↔ ∃ np b, w = .bool np b) ∧ (outType w = .int ↔ ∃ np i, w = .int np i) ∧
      (outType w = .float ↔ ∃ np f, w = .flt np f) ∧ (outType w = .str ↔ ∃ s, w = .str s) ∧
      (outType w = .obj ↔ w = .none) := by
    intro w
    cases w <;> simp [outType]
  constructor
  · rintro (h | h | h | h | h)
    · exact ⟨.bool, fun r hr w hw => (key w).1.mpr (h r hr w hw)⟩
    · exact ⟨.int, fun r hr w hw => (key w).2.1.mpr (h r hr w hw)⟩
    · exact ⟨.float, fun r hr w hw => (key w).2.2.1.mpr (h r hr w hw)⟩
    · exact ⟨.str, fun r hr w hw => (key w).2.2.2.1.mpr (h r hr w hw)⟩
    · exact ⟨.obj, fun r hr w hw => (key w).2.2.2.2.mpr (h r hr w hw)⟩
  · rintro ⟨t, h⟩
    cases t with
    | bool => exact .inl (fun r hr w hw => (key w).1.mp (h r hr w hw))
    | int => exact .inr (.inl (fun r hr w hw => (key w).2.1.mp (h r hr w hw)))
    | float => exact .inr (.inr (.inl (fun r hr w hw => (key w).2.2.1.mp (h r hr w hw))))
    | str => exact .inr (.inr (.inr (.inl (fun r hr w hw => (key w).2.2.2.1.mp (h r hr w hw)))))
    | obj => exact .inr (.inr (.inr (.inr (fun r hr w hw => (key w).2.2.2.2.mp (h r hr w hw)))))

theorem forall₂_mem_right {A B : Type} {R : A → B → Prop} {l : List A} {r : List B} (h : List.Forall₂ R l r) :
    ∀ b ∈ r, ∃ a ∈ l, R a b := by
  induction h with
  | nil => simp
  | cons h1 h2 ih =>
    intro b hb
    rcases List.mem_cons.mp hb with rfl | hb
    · exact ⟨_, by simp, h1⟩
    · obtain ⟨a, ha, hr⟩ := ih b hb
      exact ⟨a, by simp [ha], hr⟩

theorem asFirst_oneType (P : Conv) {rows : List (List Val)} (h : OneType rows) :
    List.Forall₂ (List.Forall₂ (fun v w => canon w = canon v)) rows (asFirst P rows) ∧ OneType (asFirst P rows) := by
  unfold asFirst
  obtain ⟨t, ht⟩ := (oneType_iff rows).mp h
  cases hf : rows.flatten.head? with
  | none => exact ⟨List.forall₂_same.mpr (fun r _ => List.forall₂_same.mpr (fun _ _ => rfl)), h⟩
  | some w =>
    dsimp only
    have hw : outType w = t := by
      have := List.mem_of_head? hf
      rw [List.mem_flatten] at this
      obtain ⟨r, hr, hw⟩ := this
      exact ht r hr w hw
    rw [hw]
    obtain ⟨r', h1, h2⟩ := mapM_forall₂ (f := fun r : List Val => r.mapM (castTo P t))
      (R := List.Forall₂ (fun v w => canon w = canon v ∧ outType w = outType v)) (l := rows)
      (fun r hr => mapM_forall₂ (fun v hv => by
        have := castTo_same P v
        rwa [ht r hr v hv] at this ⊢))
    unfold castRows
    rw [h1, Option.getD_some]
    refine ⟨forall₂_imp' (fun _ _ h => forall₂_imp' (fun _ _ h => h.1) h) h2, (oneType_iff _).mpr ⟨t, ?_⟩⟩
    intro r hr w hw
    obtain ⟨q, hq, hqr⟩ := forall₂_mem_right h2 r hr
    obtain ⟨v, hv, hvw⟩ := forall₂_mem_right hqr w hw
    rw [hvw.2]
    exact ht q hq v hv

theorem forall₂_lens {A B : Type} {R : A → B → Prop} {rows : List (List A)} {rows' : List (List B)} {n : Nat}
    (h : List.Forall₂ (List.Forall₂ R) rows rows') (hr : ∀ r ∈ rows, r.length = n) :
    rows'.length = rows.length ∧ ∀ r ∈ rows', r.length = n := by
  refine ⟨h.length_eq.symm, ?_⟩
  intro r hm
  obtain ⟨q, hq, hqr⟩ := forall₂_mem_right h r hm
  rw [← hqr.length_eq]
  exact hr q hq

/-- The new object shows the rows. -/
theorem madeObject_shows {P : Conv} {kind : Kind} {oneArg : Bool} {nP nF : Nat} {rows : List (List Val)}
    (hl : rows.length = nP) (hr : ∀ r ∈ rows, r.length = nF)
    (h1 : kind = .array ∧ oneArg = true →
      List.Forall₂ (List.Forall₂ (fun v w => canon w = canon v)) rows (asFirst P rows) ∧
        ¬ UnderHeader P.str (asFirst P rows))
    (h2 : ¬ (kind = .array ∧ oneArg = true) → ¬ UnderHeader P.str rows) :
    ∃ r, madeObject P kind oneArg nP nF rows = .ok r ∧ Shows r rows nP nF := by
  unfold madeObject finalRows
  by_cases ha : kind = .array ∧ oneArg = true
  · rw [if_neg (by rintro ⟨h, _⟩; rw [h] at ha; cases ha.1), if_pos ha]
    obtain ⟨s1, s2⟩ := h1 ha
    obtain ⟨t1, t2⟩ := forall₂_lens s1 hr
    obtain ⟨r, r1, r2⟩ := newObject_shows (str := P.str) (t1.trans hl) t2 s2
    refine ⟨r, r1, r2.wf, r2.plen, r2.flen, r2.pnames, r2.fnames, ?_⟩
    intro i j
    rw [r2.elems, canon_rows s1]
  · by_cases hf : kind = .frame ∧ oneArg = true
    · rw [if_pos hf]
      exact newFrameObject_shows hl hr (h2 ha)
    · rw [if_neg hf, if_neg ha]
      exact newObject_shows hl hr (h2 ha)

theorem asFirst_plain (P : Conv) {rows : List (List Val)} {n : Nat} (hr : ∀ r ∈ rows, r.length = n) (h : OneType rows) :
    List.Forall₂ (List.Forall₂ (fun v w => canon w = canon v)) rows (asFirst P rows) ∧
      ¬ UnderHeader P.str (asFirst P rows) := by
  obtain ⟨s1, s2⟩ := asFirst_oneType P h
  exact ⟨s1, oneType_plain (forall₂_lens s1 hr).2 s2⟩

theorem resolve_selects {a : AxisSt} (h : a.Ok) {lim : Limit} {ps : List Nat} (hs : Selects a lim ps) (kind : Kind)
    (oneArg : Bool) : ∃ l, resolveLimit a lim.idents = .ok l ∧ chosenIdx kind oneArg a.len l = ps ∧
      (l = none ∧ ps = List.range a.len ∨ l = some ps) := by
  rcases hs with ⟨rfl, rfl⟩ | ⟨ids, h1, h2, h3⟩
  · refine ⟨none, rfl, ?_, .inl ⟨rfl, rfl⟩⟩
    unfold chosenIdx
    split <;> rfl
  · rw [h1]
    refine ⟨some ps, ?_, ?_, .inr rfl⟩
    · simp only [resolveLimit]
      rw [(resolveIdents_ok_iff a ids ps h).mpr h3]
      rfl
    · unfold chosenIdx
      cases ps with
      | nil => cases ids with
        | nil => exact absurd rfl h2
        | cons _ _ => cases h3
      | cons i l => split <;> rfl

theorem limits_selects {o : Obj Val} (h : o.WF) {points features : Limit} {ps fs : List Nat}
    (hp : Selects o.pts points ps) (hf : Selects o.fts features fs) (kind : Kind) (oneArg : Bool) :
    ∃ l, limits o points features = .ok l ∧ chosenIdx kind oneArg o.pts.len l.1 = ps ∧
      chosenIdx kind oneArg o.fts.len l.2 = fs ∧ (l.1 = none ∧ ps = List.range o.pts.len ∨ l.1 = some ps) ∧
      (l.2 = none ∧ fs = List.range o.fts.len ∨ l.2 = some fs) := by
  obtain ⟨lp, p1, p2, p3⟩ := resolve_selects h.pts hp kind oneArg
  obtain ⟨lf, f1, f2, f3⟩ := resolve_selects h.fts hf kind oneArg
  exact ⟨(lp, lf), by simp [limits, p1, f1, bind, Except.bind, pure, Except.pure], p2, f2, p3, f3⟩

theorem oneArg_iff (fn : Fn) : fn.oneArg = true ↔ ∀ f, fn ≠ .three f := by
  cases fn <;> simp [Fn.oneArg]

/-! ## C86 -/

/-- **C86 (calculateOnElements).**  If the function gives an element for each element of the given points and features,
the result is an object without names with exactly these, in the order of the lists; for a function of the value on
Matrix, List and Sparse objects if the new values have one type, otherwise if the first of the new points does not look
like a row of names. -/
theorem C86_calculate {P : Conv} {kind : Kind} {fn : Fn} {pz sk : Bool} {points features : Limit} {o : Obj Val}
    (h : o.WF) {ps fs : List Nat} (hp : Selects o.pts points ps) (hf : Selects o.fts features fs)
    {rows : List (List Val)} (hn : NewRows fn pz sk o ps fs rows)
    (h1 : kind = .array ∧ (∀ f, fn ≠ .three f) → OneType rows)
    (h2 : ¬ (kind = .array ∧ ∀ f, fn ≠ .three f) → ¬ UnderHeader P.str rows) :
    ∃ r, calculateOnElements P kind fn pz sk points features o = .ok r ∧ Shows r rows ps.length fs.length := by
  obtain ⟨l, l1, l2, l3, _⟩ := limits_selects h hp hf kind fn.oneArg
  unfold calculateOnElements calcBackend
  simp only [l1, l2, l3, bind, Except.bind, calcRows_new.mpr hn]
  obtain ⟨s1, s2⟩ := forall₂_shape hn
  rw [← oneArg_iff] at h1 h2
  exact madeObject_shows s1 s2 (fun hc => asFirst_plain P s2 (h1 hc)) h2

/-- **C86 (calculateOnElements fails otherwise):** it succeeds only if the function gives an element for each of them. -/
theorem C86_calculate_only {P : Conv} {kind : Kind} {fn : Fn} {pz sk : Bool} {points features : Limit} {o r : Obj Val}
    (h : o.WF) {ps fs : List Nat} (hp : Selects o.pts points ps) (hf : Selects o.fts features fs)
    (hr : calculateOnElements P kind fn pz sk points features o = .ok r) : ∃ rows, NewRows fn pz sk o ps fs rows := by
  obtain ⟨l, l1, l2, l3, _⟩ := limits_selects h hp hf kind fn.oneArg
  unfold calculateOnElements calcBackend at hr
  simp only [l1, l2, l3, bind, Except.bind] at hr
  cases hc : calcRows (fn.validated pz sk) o ps fs with
  | error e => rw [hc] at hr; cases hr
  | ok rows => exact ⟨rows, calcRows_new.mp hc⟩

/-! ### matchingElements -/

theorem pyEq_true (v : Val) : pyEq v (.bool false true) = true ↔ canon v = .num (.fin 1) := by
  cases v with
  | none => simp [pyEq, canon, numEq, Val.num]
  | bool np b => cases b <;> simp [pyEq, canon, numEq, Val.num, Flt.eq]
  | int np i => simp [pyEq, canon, numEq, Val.num, Flt.eq]
  | flt np f => cases f <;> simp [pyEq, canon, numEq, Val.num, Flt.eq]
  | str s => simp [pyEq, canon, numEq, Val.num]

theorem pyEq_false (v : Val) : pyEq v (.bool false false) = true ↔ canon v = .num (.fin 0) := by
  cases v with
  | none => simp [pyEq, canon, numEq, Val.num]
  | bool np b => cases b <;> simp [pyEq, canon, numEq, Val.num, Flt.eq]
  | int np i => simp [pyEq, canon, numEq, Val.num, Flt.eq]
  | flt np f => cases f <;> simp [pyEq, canon, numEq, Val.num, Flt.eq]
  | str s => simp [pyEq, canon, numEq, Val.num]

theorem truth_one {v : Val} (h : canon v = .num (.fin 1)) : truth v = true := by
  cases v with
  | none => cases h
  | bool np b => cases b <;> simp_all [canon, truth]
  | int np i => simp_all [canon, truth]
  | flt np f => cases f <;> simp_all [canon, truth]
  | str s => cases h

theorem truth_zero {v : Val} (h : canon v = .num (.fin 0)) : truth v = false := by
  cases v with
  | none => cases h
  | bool np b => cases b <;> simp_all [canon, truth]
  | int np i => simp_all [canon, truth]
  | flt np f => cases f <;> simp_all [canon, truth]
  | str s => cases h

theorem asBool_iff (r w : Val) : asBool r = .ok w ↔ ∃ b, canon r = .num (.fin (if b then 1 else 0)) ∧ w = .bool false b := by
  unfold asBool
  by_cases h1 : pyEq r (.bool false true) = true
  · have c := (pyEq_true r).mp h1
    simp only [h1, Bool.true_or, if_true, truth_one c]
    constructor
    · intro h; cases h; exact ⟨true, by simpa using c, rfl⟩
    · rintro ⟨b, hb, rfl⟩
      cases b
      · rw [c] at hb; simp at hb
      · rfl
  · by_cases h2 : pyEq r (.bool false false) = true
    · have c := (pyEq_false r).mp h2
      simp only [h2, Bool.or_true, if_true, truth_zero c]
      constructor
      · intro h; cases h; exact ⟨false, by simpa using c, rfl⟩
      · rintro ⟨b, hb, rfl⟩
        cases b
        · rfl
        · rw [c] at hb; simp at hb
    · rw [if_neg (by simp [h1, h2])]
      constructor
      · intro h; cases h
      · rintro ⟨b, hb, rfl⟩
        cases b
        · exact absurd ((pyEq_false r).mpr (by simpa using hb)) h2
        · exact absurd ((pyEq_true r).mpr (by simpa using hb)) h1

theorem detect_defined {m : Matcher} (h : m.Defined) : ∃ b, m.detect = .ok b ∧
    ∀ v i j w, m.wrapped b v i j = .ok w ↔ ∃ c, m.Says v i j c ∧ w = .bool false c := by
  have key : ∀ (x : Res Val) (w : Val), (do let r ← x; asBool r) = .ok w ↔
      ∃ c, (∃ r, canon r = .num (.fin (if c then 1 else 0)) ∧ x = .ok r) ∧ w = .bool false c := by
    intro x w
    simp only [bind, Except.bind]
    cases x with
    | error e => simp
    | ok r =>
      dsimp only
      rw [asBool_iff]
      simp
  cases m with
  | one f =>
    refine ⟨true, rfl, ?_⟩
    intro v i j w
    exact key (f v) w
  | three f =>
    obtain ⟨r, hr⟩ := h f rfl
    refine ⟨false, ?_, ?_⟩
    · unfold Matcher.detect Matcher.probe
      dsimp only [zeroVal]
      rw [hr]
    · intro v i j w
      exact key (f v i j) w

theorem giveNames_eq (a : AxisSt) (n : Option (List (Option String))) : giveNames a n = AxisSt.init a.len n := by
  cases n with
  | none => rfl
  | some l =>
    simp only [giveNames, AxisSt.init]
    rw [setNames_list_eq, setNames_list_eq]
    by_cases h : l.length = a.len
    · simp [h]
    · simp [h]

theorem selects_bound {a : AxisSt} (h : a.Ok) {lim : Limit} {ps : List Nat} (hs : Selects a lim ps) :
    ∀ i ∈ ps, i < a.len := by
  rcases hs with ⟨_, rfl⟩ | ⟨ids, h1, h2, h3⟩
  · simp
  · exact resolveIdents_bound h ((resolveIdents_ok_iff a ids ps h).mpr h3)

theorem match_names {a : AxisSt} (h : a.Ok) {lim : Limit} {ps : List Nat} (hs : Selects a lim ps)
    (hn : a.tbl = none ∨ ps.Nodup) {l : Option (List Nat)} (hl : l = none ∧ ps = List.range a.len ∨ l = some ps) :
    ∃ a', AxisSt.init ps.length (matchNames a l) = .ok a' ∧ a'.Ok ∧ a'.len = ps.length ∧ NamesOf a a' ps := by
  have hb := selects_bound h hs
  have hlen : a.getNames.length = a.len := AxisSt.Ok.length_getNames h
  have hm : matchNames a l = a.getNamesNoGen.map (fun n => pick n ps) := by
    rcases hl with ⟨rfl, rfl⟩ | rfl
    · unfold matchNames
      cases hg : a.getNamesNoGen with
      | none => rfl
      | some n =>
        have : n = a.getNames := by
          cases ht : a.tbl with
          | none => simp [AxisSt.getNamesNoGen, ht] at hg
          | some t =>
            simp [AxisSt.getNamesNoGen, ht] at hg
            simp [AxisSt.getNames, AxisSt.touch, ht, hg]
        simp only [Option.map_some]
        rw [pick_range_of_eq n (by rw [this, hlen])]
    · unfold matchNames
      cases a.getNamesNoGen <;> rfl
  rw [hm]
  rcases hn with hn | hn
  · have : a.getNamesNoGen = none := by simp [AxisSt.getNamesNoGen, hn]
    rw [this]
    refine ⟨⟨ps.length, none⟩, rfl, none_ok _, rfl, ?_⟩
    intro k i hk
    have hi := hb i (List.mem_of_getElem? hk)
    have hg : a.getNames = List.replicate a.len none := by
      simp [AxisSt.getNames, AxisSt.touch, hn, defaultTable]
    have hg' : (⟨ps.length, none⟩ : AxisSt).getNames = List.replicate ps.length none := rfl
    rw [hg, hg', List.getElem?_replicate, List.getElem?_replicate, if_pos hi,
      if_pos (List.getElem?_eq_some_iff.mp hk).1]
  · obtain ⟨a', h1, h2, h3, h4, _⟩ := init_pick h hn hb
    refine ⟨a', h1, h2, h3, ?_⟩
    intro k i hk
    rw [h4, getElem?_pick (by rw [hlen]; exact hb), hk]
    rfl

/-- **C86 (matchingElements).**  The result has, for each element of the given points and features, what the function
says about it, and the names of these points and features; if none is given twice, or there are no names. -/
theorem C86_matching {P : Conv} {kind : Kind} {m : Matcher} {points features : Limit} {o : Obj Val}
    (h : o.WF) (hm : m.Defined) {ps fs : List Nat} (hp : Selects o.pts points ps) (hf : Selects o.fts features fs)
    (np : o.pts.tbl = none ∨ ps.Nodup) (nf : o.fts.tbl = none ∨ fs.Nodup)
    {rows : List (List Bool)} (hr : List.Forall₂ (fun i row => List.Forall₂ (fun j b =>
      ∃ v, o.elem? i j = some v ∧ m.Says v i j b) fs row) ps rows) :
    ∃ r, matchingElements P kind m points features o = .ok r ∧ r.WF ∧ r.pts.len = ps.length ∧ r.fts.len = fs.length ∧
      NamesOf o.pts r.pts ps ∧ NamesOf o.fts r.fts fs ∧
      ∀ (i j : Nat), (r.elem? i j).map canon =
        (rows[i]?.bind (fun row => row[j]?)).map (fun b => .num (.fin (if b then 1 else 0))) := by
  obtain ⟨b, d1, d2⟩ := detect_defined hm
  obtain ⟨l, l1, l2, l3, l4, l5⟩ := limits_selects h hp hf kind b
  have hrows : calcRows (m.wrapped b) o ps fs = .ok (rows.map (fun r => r.map (.bool false))) := by
    rw [calcRows_iff, List.forall₂_map_right_iff]
    refine forall₂_imp' ?_ hr
    intro i row hrow
    rw [List.forall₂_map_right_iff]
    refine forall₂_imp' ?_ hrow
    rintro j c ⟨v, hv, hc⟩
    exact ⟨v, hv, (d2 v i j _).mpr ⟨c, hc, rfl⟩⟩
  obtain ⟨s1, s2⟩ := forall₂_shape (calcRows_iff.mp hrows)
  have hone : OneType (rows.map (fun r => r.map (Val.bool false))) := by
    left
    intro r hr w hw
    obtain ⟨q, _, rfl⟩ := List.mem_map.mp hr
    obtain ⟨c, _, rfl⟩ := List.mem_map.mp hw
    exact ⟨_, _, rfl⟩
  obtain ⟨ret, r1, r2⟩ := madeObject_shows (P := P) (kind := kind) (oneArg := b) s1 s2
    (fun _ => asFirst_plain P s2 hone) (fun _ => oneType_plain s2 hone)
  obtain ⟨a, a1, a2, a3, a4⟩ := match_names h.pts hp np l4
  obtain ⟨c, c1, c2, c3, c4⟩ := match_names h.fts hf nf l5
  refine ⟨⟨ret.data, a, c⟩, ?_, ⟨?_, ?_, a2, c2⟩, a3, c3, a4, c4, ?_⟩
  · unfold matchingElements calcBackend
    simp only [d1, l1, l2, l3, hrows, r1, bind, Except.bind, pure, Except.pure, giveNames_eq, r2.plen, r2.flen, a1, c1]
  · rw [a3, ← r2.plen]; exact r2.wf.rows
  · intro r hr; rw [c3, ← r2.flen]; exact r2.wf.cols r hr
  · intro i j
    have := r2.elems i j
    simp only [Obj.elem?] at this ⊢
    rw [this, List.getElem?_map]
    cases rows[i]? with
    | none => rfl
    | some row =>
      simp only [Option.map_some, Option.bind_some, List.getElem?_map, Option.map_map]
      rfl

/-- **C86 violated (the probing call).**  A function of three arguments is called with (0, 0, 0) before anything else:
if it fails there, `matchingElements` fails, whatever it says about the elements. -/
theorem C86_probe_violated (P : Conv) (kind : Kind) (f : Val → Nat → Nat → Res Val) (points features : Limit) (o : Obj Val)
    (hf : f (.int false 0) 0 0 = .error .KeyError) :
    matchingElements P kind (.three f) points features o = .error .KeyError := by
  simp [matchingElements, Matcher.detect, Matcher.probe, zeroVal, hf, bind, Except.bind]

/-- **C86 violated (empty lists).**  An empty list of points or features counts as all of them, for all objects but
DataFrames. -/
theorem C86_empty_violated (P : Conv) (fn : Fn) (pz sk : Bool) (lim : Limit) (o : Obj Val) :
    calculateOnElements P .array fn pz sk (.list []) lim o = calculateOnElements P .array fn pz sk .all lim o ∧
    calculateOnElements P .array fn pz sk lim (.list []) o = calculateOnElements P .array fn pz sk lim .all o := by
  have e1 : ∀ a : AxisSt, resolveLimit a (Limit.list []).idents = .ok (some []) := fun _ => rfl
  have e2 : ∀ a : AxisSt, resolveLimit a Limit.all.idents = .ok none := fun _ => rfl
  have e3 : ∀ b n, chosenIdx .array b n (some []) = chosenIdx .array b n none := by
    intro b n
    simp [chosenIdx, orAll]
  constructor
  · unfold calculateOnElements calcBackend limits
    simp only [e1, e2, bind, Except.bind, pure, Except.pure]
    cases resolveLimit o.fts lim.idents with
    | error e => rfl
    | ok l => simp only [e3]
  · unfold calculateOnElements calcBackend limits
    simp only [e1, e2, bind, Except.bind, pure, Except.pure]
    cases resolveLimit o.pts lim.idents with
    | error e => rfl
    | ok l => simp only [e3]

/-- **C86 violated (the type of the first value).**  The values get the type of the first one: after an integer, 1/2 is
0; after a string, a missing value is the string that `str(None)` is; a DataFrame has the values themselves. -/
theorem C86_first_type_violated (P : Conv) :
    (∃ r, calculateOnElements P .array (.dict [(.int false 1, .int false 7), (.int false 2, .flt false (.fin (1/2)))])
      false false .all .all ⟨[[.int false 1, .int false 2]], ⟨1, none⟩, ⟨2, none⟩⟩ = .ok r ∧
      r.data = [[.int true 7, .int true 0]]) ∧
    (∃ r, calculateOnElements P .frame (.dict [(.int false 1, .int false 7), (.int false 2, .flt false (.fin (1/2)))])
      false false .all .all ⟨[[.int false 1, .int false 2]], ⟨1, none⟩, ⟨2, none⟩⟩ = .ok r ∧
      r.data = [[.int false 7, .flt false (.fin (1/2))]]) ∧
    (∃ r, calculateOnElements P .array (.dict [(.int false 1, .str "a"), (.int false 2, .none)])
      false false .all .all ⟨[[.int false 1, .int false 2]], ⟨1, none⟩, ⟨2, none⟩⟩ = .ok r ∧
      r.data = [[.str "a", .str (P.str .none)]]) := by
  refine ⟨⟨_, rfl, ?_⟩, ⟨_, rfl, by rfl⟩, ⟨_, rfl, by rfl⟩⟩
  show [[Val.int true 7, Val.int true ((1 / 2 : Rat).num.tdiv ((1 / 2 : Rat).den))]] = _
  rw [show ((1 / 2 : Rat).num.tdiv ((1 / 2 : Rat).den)) = 0 by decide +kernel]

/-- **C86 violated (a point becomes feature names).**  If a function of three arguments gives different strings for the
first point and some integer for the second one, the result has no first point. -/
theorem C86_header_violated {P : Conv} {kind : Kind} {f : Val → Nat → Nat → Res (Option Val)} {pz sk : Bool}
    {points features : Limit} {o : Obj Val} (h : o.WF) {ps fs : List Nat} (hp : Selects o.pts points ps)
    (hf : Selects o.fts features fs) {names : List String} {second : List Val} {rest : List (List Val)}
    (hn : NewRows (.three f) pz sk o ps fs (names.map Val.str :: second :: rest)) (hnd : names.Nodup)
    (hpn : names.head? ≠ some "pointNames") (hnum : ∃ np i, Val.int np i ∈ second) :
    ∃ r, calculateOnElements P kind (.three f) pz sk points features o = .ok r ∧ r.pts.len + 1 = ps.length ∧
      r.fts.getNames = names.map some := by
  obtain ⟨l, l1, l2, l3, _⟩ := limits_selects h hp hf kind false
  obtain ⟨s1, s2⟩ := forall₂_shape hn
  obtain ⟨np, i, hi⟩ := hnum
  have hpos : 0 < fs.length := by
    rw [← s2 second (by simp)]
    exact List.length_pos_of_mem hi
  have hps : ps.length ≠ 0 := by rw [← s1]; simp
  have hhead : (names.map Val.str).head?.bind (valOps P.str).asStr ≠ some "pointNames" := by
    cases names with
    | nil => simp
    | cons a as => simpa [valOps] using hpn
  have hstr : ∀ l : List String, (l.map Val.str).map (valOps P.str).asStr = l.map some := by
    intro l
    rw [List.map_map]
    rfl
  have hnd' : (names.map some).Nodup := hnd.map (fun a b h => by cases h; rfl)
  obtain ⟨r, r1, r2⟩ := C53_data_automatic_header (valOps P.str) (first := names.map Val.str) (second := second) (rest := rest)
    hpos s2 ⟨by
      rw [if_neg hhead]
      intro v hv
      obtain ⟨s, _, rfl⟩ := List.mem_map.mp hv
      exact ⟨s, rfl⟩, by
      rw [← List.map_tail, hstr]
      rw [List.map_tail]
      exact hnd'.sublist (List.tail_sublist _), by
      rw [if_neg hhead]
      exact ⟨_, hi, rfl⟩⟩ (by
      intro v s hv
      cases v <;> simp_all [valOps]) hhead (by rw [hstr]; exact hnd')
  refine ⟨r, ?_, ?_, ?_⟩
  · unfold calculateOnElements calcBackend
    change Except.bind _ _ = _
    simp only [Fn.oneArg, l1, l2, l3, bind, Except.bind, calcRows_new.mpr hn]
    unfold madeObject finalRows newObject
    simp only [Bool.false_eq_true, and_false, if_false]
    rw [if_neg (by omega)]
    exact r1
  · rw [← r2.wf.rows, r2.data, ← s1]
    simp
  · rw [r2.fnames, Option.getD_some, hstr]

/-! ### countElements -/

theorem number_canon {v w : Val} (h : canon v = canon w) : number v = number w := by
  have key : ∀ v, number v = match canon v with | .num (.fin q) => q | _ => 0 := by
    intro v
    cases v with
    | none => rfl
    | bool np b => cases b <;> rfl
    | int np i => rfl
    | flt np f => cases f <;> rfl
    | str s => rfl
  rw [key, key, h]

theorem shows_numbers {r : Obj Val} {rows : List (List Val)} {nP nF : Nat} (h : Shows r rows nP nF)
    (hl : rows.length = nP) (hr : ∀ x ∈ rows, x.length = nF) :
    r.data.map (fun x => x.map number) = rows.map (fun x => x.map number) := by
  refine List.ext_getElem (by simp [h.wf.rows, h.plen, hl]) ?_
  intro i h1 h2
  simp only [List.length_map] at h1 h2
  simp only [List.getElem_map]
  have c1 := h.wf.cols _ (List.getElem_mem h1)
  have c2 := hr _ (List.getElem_mem h2)
  refine List.ext_getElem (by simp [c1, c2, h.flen]) ?_
  intro j h3 h4
  simp only [List.length_map] at h3 h4
  simp only [List.getElem_map]
  have := h.elems i j
  simp only [Obj.elem?, List.getElem?_eq_getElem h1, List.getElem?_eq_getElem h2, Option.bind_some,
    List.getElem?_eq_getElem h3, List.getElem?_eq_getElem h4, Option.map_some] at this
  exact number_canon (by simpa using this)

/-- A truth value, or the zero that stands for false. -/
def Flag (w : Val) : Prop := (∃ np b, w = .bool np b) ∨ ∃ np, w = .flt np (.fin 0)

theorem flag_cast (P : Conv) {w v : Val} (hw : Flag w) (hv : Flag v) :
    ∃ v', castTo P (outType w) v = some v' ∧ canon v' = canon v ∧ ∀ s, v' ≠ .str s := by
  rcases hw with ⟨n, b, rfl⟩ | ⟨n, rfl⟩ <;> rcases hv with ⟨n', b', rfl⟩ | ⟨n', rfl⟩
  · exact ⟨_, rfl, rfl, by simp⟩
  · exact ⟨_, rfl, by simp [canon, truth], by simp⟩
  · exact ⟨_, rfl, rfl, by simp [toFloat, Val.num]⟩
  · exact ⟨_, rfl, rfl, by simp [toFloat, Val.num]⟩

theorem asFirst_flags (P : Conv) {rows : List (List Val)} {n : Nat} (hr : ∀ r ∈ rows, r.length = n)
    (h : ∀ r ∈ rows, ∀ w ∈ r, Flag w) :
    List.Forall₂ (List.Forall₂ (fun v w => canon w = canon v)) rows (asFirst P rows) ∧
      ¬ UnderHeader P.str (asFirst P rows) := by
  unfold asFirst
  cases hf : rows.flatten.head? with
  | none =>
    refine ⟨List.forall₂_same.mpr (fun r _ => List.forall₂_same.mpr (fun _ _ => rfl)), noText_plain hr ?_⟩
    intro r hm w hw s hc
    rcases h r hm w hw with ⟨_, _, e⟩ | ⟨_, e⟩ <;> rw [e] at hc <;> cases hc
  | some w =>
    dsimp only
    have hw : Flag w := by
      have := List.mem_of_head? hf
      rw [List.mem_flatten] at this
      obtain ⟨r, hr, hw⟩ := this
      exact h r hr w hw
    obtain ⟨r', h1, h2⟩ := mapM_forall₂ (f := fun r : List Val => r.mapM (castTo P (outType w)))
      (R := List.Forall₂ (fun v w => canon w = canon v ∧ ∀ s, w ≠ .str s)) (l := rows)
      (fun r hr => mapM_forall₂ (fun v hv => flag_cast P hw (h r hr v hv)))
    unfold castRows
    rw [h1, Option.getD_some]
    have h3 : List.Forall₂ (List.Forall₂ (fun v w => canon w = canon v)) rows r' :=
      forall₂_imp' (fun _ _ h => forall₂_imp' (fun _ _ h => h.1) h) h2
    refine ⟨h3, noText_plain (forall₂_lens h3 hr).2 ?_⟩
    intro r hm x hx s
    obtain ⟨q, hq, hqr⟩ := forall₂_mem_right h2 r hm
    obtain ⟨v, hv, hvw⟩ := forall₂_mem_right hqr x hx
    exact hvw.2 s

theorem calcRows_all {g : Val → Nat → Nat → Res Val} {o : Obj Val} (h : o.WF) {w : Val → Val}
    (hg : ∀ v i j, g v i j = .ok (w v)) :
    calcRows g o (List.range o.pts.len) (List.range o.fts.len) = .ok (o.data.map (fun r => r.map w)) := by
  rw [calcRows_iff, List.forall₂_iff_get]
  refine ⟨by simp [h.rows], ?_⟩
  intro i h1 h2
  simp only [List.length_map] at h2
  rw [List.forall₂_iff_get]
  refine ⟨by simp [h.cols _ (List.getElem_mem h2)], ?_⟩
  intro j h3 h4
  simp only [List.get_eq_getElem, List.getElem_map, List.length_map] at h4 ⊢
  refine ⟨o.data[i][j], ?_, ?_⟩
  · simp [Obj.elem?, h2, h4]
  · simp [hg]

theorem sum_count (c : Val → Bool) (rows : List (List Val)) :
    (rows.map (fun r => (r.map (fun v => if c v then (1 : Rat) else 0)).sum)).sum = (((rows.flatten.filter c).length : Nat) : Rat) := by
  have inner : ∀ r : List Val, (r.map (fun v => if c v then (1 : Rat) else 0)).sum = (((r.filter c).length : Nat) : Rat) := by
    intro r
    induction r with
    | nil => rfl
    | cons v r ih =>
      rw [List.map_cons, List.sum_cons, ih, List.filter_cons]
      cases c v <;> simp [add_comm]
  induction rows with
  | nil => rfl
  | cons r rows ih =>
    rw [List.map_cons, List.sum_cons, ih, inner, List.flatten_cons, List.filter_append, List.length_append]
    simp

/-- **C86 (countElements).**  The number of elements for which the condition holds, for every condition that gives a
truth value and does not distinguish 0, 0.0 and False, 1, 1.0 and True, None and nan. -/
theorem C86_count {P : Conv} {kind : Kind} {f : Val → Res (Option Val)} {c : Val → Bool} {o : Obj Val} (h : o.WF)
    (hf : ∀ v, ∃ np, f v = .ok (some (.bool np (c v)))) (hc : ∀ a b, canon a = canon b → c a = c b) :
    countElements P kind (.one f) o = .ok (((o.data.flatten.filter c).length : Nat) : Int) := by
  have hval : ∀ v, ∃ w, (∀ i j, (Fn.one f).validated false false v i j = .ok w) ∧ Flag w ∧
      number w = if c v then 1 else 0 := by
    intro v
    unfold Fn.validated
    by_cases hz : (Fn.one f).preserve false = true ∧ pyEq v zeroVal = true
    · refine ⟨.flt false (.fin 0), fun i j => by rw [if_pos hz], .inr ⟨_, rfl⟩, ?_⟩
      have h0 : c v = false := by
        rw [hc v (.int false 0) (by rw [(pyEq_zero v).mp hz.2]; rfl)]
        obtain ⟨np, e⟩ := hf (.int false 0)
        have := hz.1
        simp only [Fn.preserve, Fn.oneArg, Bool.false_or, Bool.true_and, Fn.keepsZero, Fn.call, zeroVal, e] at this
        cases hcc : c (.int false 0) with
        | false => rfl
        | true => rw [hcc] at this; exact absurd this (by simp [pyEq, numEq, Val.num, Flt.eq])
      rw [h0]
      rfl
    · obtain ⟨np, e⟩ := hf v
      refine ⟨.bool np (c v), fun i j => ?_, .inl ⟨_, _, rfl⟩, ?_⟩
      · rw [if_neg hz]
        simp [Fn.call, e, bind, Except.bind, checkReturn]
      · cases c v <;> rfl
  choose w w1 w2 w3 using hval
  obtain ⟨l, l1, l2, l3, _⟩ := limits_selects h (points := .all) (features := .all) (.inl ⟨rfl, rfl⟩) (.inl ⟨rfl, rfl⟩) kind true
  have hrows := calcRows_all h (g := (Fn.one f).validated false false) (w := w) (fun v i j => w1 v i j)
  obtain ⟨s1, s2⟩ := forall₂_shape (calcRows_iff.mp hrows)
  have hflag : ∀ r ∈ o.data.map (fun r => r.map w), ∀ x ∈ r, Flag x := by
    intro r hr x hx
    obtain ⟨q, _, rfl⟩ := List.mem_map.mp hr
    obtain ⟨v, _, rfl⟩ := List.mem_map.mp hx
    exact w2 v
  obtain ⟨ret, r1, r2⟩ := madeObject_shows (P := P) (kind := kind) (oneArg := true) s1 s2
    (fun _ => asFirst_flags P s2 hflag) (fun _ => noText_plain s2 (by
      intro r hm x hx s hcc
      rcases hflag r hm x hx with ⟨_, _, e⟩ | ⟨_, e⟩ <;> rw [e] at hcc <;> cases hcc))
  have hn := shows_numbers r2 s1 s2
  have hs : sumData ret.data = (((o.data.flatten.filter c).length : Nat) : Int) := by
    have hq : (ret.data.map (fun r => (r.map number).sum)).sum = (((o.data.flatten.filter c).length : Nat) : Rat) := by
      have : ret.data.map (fun r => (r.map number).sum) = (ret.data.map (fun r => r.map number)).map List.sum := by
        rw [List.map_map]; rfl
      rw [this, hn, ← sum_count, List.map_map, List.map_map]
      congr 1
      refine List.map_congr_left ?_
      intro r _
      simp only [Function.comp, List.map_map]
      congr 1
      refine List.map_congr_left ?_
      intro v _
      exact w3 v
    unfold sumData
    simp only [hq]
    rw [Rat.num_natCast, Rat.den_natCast]
    simp
  unfold countElements calculateOnElements calcBackend
  simp only [Fn.oneArg, l1, l2, l3, bind, Except.bind, hrows, r1, pure, Except.pure, hs]

/-- **C86 violated (countElements and False).**  The condition "is a boolean" does not hold for 0, so False, which equals
0, is not counted. -/
theorem C86_count_violated (P : Conv) :
    countElements P .array (.one (fun v => .ok (some (.bool false (boolean v)))))
      ⟨[[.bool false false, .bool false true]], ⟨1, none⟩, ⟨2, none⟩⟩ = .ok 1 := by
  show Except.ok (sumData [[.flt true (.fin 0), .flt true (.fin 1)]]) = _
  rw [show sumData [[.flt true (.fin 0), .flt true (.fin 1)]] = 1 by decide +kernel]

/-! ### Sparse with `preserveZeros=True` -/

theorem calcEntries_iff (g : Val → Nat → Nat → Res Val) : ∀ (es rs : List Entry),
    calcEntries g es = .ok rs ↔
      List.Forall₂ (fun e r => r.1 = e.1 ∧ r.2.1 = e.2.1 ∧ g e.2.2 e.1 e.2.1 = .ok r.2.2) es rs
  | [], rs => by
    simp only [calcEntries]
    cases rs <;> simp
  | e :: es, rs => by
    simp only [calcEntries, bind, Except.bind, pure, Except.pure]
    cases hg : g e.2.2 e.1 e.2.1 with
    | error x =>
      constructor
      · intro h; cases h
      · intro h
        cases h with
        | cons h1 _ => rw [hg] at h1; cases h1.2.2
    | ok w =>
      dsimp only
      cases hc : calcEntries g es with
      | error x =>
        constructor
        · intro h; cases h
        · intro h
          cases h with
          | cons _ h2 => rw [← calcEntries_iff g es, hc] at h2; cases h2
      | ok r =>
        dsimp only
        constructor
        · intro h
          cases h
          exact .cons ⟨rfl, rfl, hg⟩ ((calcEntries_iff g es r).mp hc)
        · intro h
          cases h with
          | @cons _ b _ _ h1 h2 =>
            rw [hg] at h1
            rw [← calcEntries_iff g es, hc] at h2
            cases h2
            obtain ⟨a1, a2, a3⟩ := h1
            cases a3
            rw [← a1, ← a2]

theorem retype_rel {P : Conv} {es : List Entry} (h : OneType [es.map (fun e => e.2.2)]) :
    List.Forall₂ (fun e r => r.1 = e.1 ∧ r.2.1 = e.2.1 ∧ canon r.2.2 = canon e.2.2) es (retype P es) := by
  unfold retype
  have := (asFirst_oneType P h).1
  revert this
  generalize asFirst P [es.map (fun e => e.2.2)] = rows
  intro hr
  cases hr with
  | cons h1 h2 =>
    cases h2
    rename_i row
    simp only [List.flatten_cons, List.flatten_nil, List.append_nil]
    rw [List.forall₂_map_left_iff] at h1
    clear h
    induction h1 with
    | nil => exact .nil
    | cons a1 a2 ih => exact .cons ⟨rfl, rfl, a1⟩ ih

theorem find_rel {R : Val → Val → Prop} {es rs : List Entry}
    (h : List.Forall₂ (fun e r => r.1 = e.1 ∧ r.2.1 = e.2.1 ∧ R e.2.2 r.2.2) es rs) (i j : Nat) :
    (es.find? (fun e => e.1 == i && e.2.1 == j) = none ∧ rs.find? (fun e => e.1 == i && e.2.1 == j) = none) ∨
    ∃ e r, es.find? (fun e => e.1 == i && e.2.1 == j) = some e ∧ rs.find? (fun e => e.1 == i && e.2.1 == j) = some r ∧
      R e.2.2 r.2.2 := by
  induction h with
  | nil => exact .inl ⟨rfl, rfl⟩
  | cons h1 h2 ih =>
    rename_i e r es rs
    rw [List.find?_cons, List.find?_cons, h1.1, h1.2.1]
    cases e.1 == i && e.2.1 == j with
    | true => exact .inr ⟨e, r, rfl, rfl, h1.2.2⟩
    | false => exact ih

theorem entries_find {o : Obj Val} (h : o.WF) {i j : Nat} {v : Val} (hv : o.elem? i j = some v) :
    (entries o).find? (fun e => e.1 == i && e.2.1 == j) =
      if canon v = .num (.fin 0) then none else some (i, j, v) := by
  have hm : (i, j) ∈ cells o.pts.len o.fts.len := mem_cells.mpr (elem_lt h hv)
  have hst : stored o (i, j) = true ↔ ¬ canon v = .num (.fin 0) := by
    rw [← pyEq_zero]
    simp [stored, hv]
  unfold entries
  rw [List.find?_map]
  by_cases hz : canon v = .num (.fin 0)
  · rw [if_pos hz, Option.map_eq_none_iff, List.find?_eq_none]
    rintro ⟨a, b⟩ hab
    simp only [Function.comp, Bool.and_eq_true, beq_iff_eq, not_and]
    rintro rfl rfl
    exact hst.mp (List.mem_filter.mp hab).2 hz
  · rw [if_neg hz]
    have : ((cells o.pts.len o.fts.len).filter (stored o)).find?
        ((fun e : Entry => e.1 == i && e.2.1 == j) ∘ fun p => (p.1, p.2, (o.elem? p.1 p.2).getD .none)) = some (i, j) := by
      have hex : (List.find? ((fun e : Entry => e.1 == i && e.2.1 == j) ∘ fun p => (p.1, p.2, (o.elem? p.1 p.2).getD .none))
          ((cells o.pts.len o.fts.len).filter (stored o))).isSome := by
        rw [List.find?_isSome]
        exact ⟨(i, j), List.mem_filter.mpr ⟨hm, hst.mpr hz⟩, by simp⟩
      obtain ⟨p, hp⟩ := Option.isSome_iff_exists.mp hex
      rw [hp]
      have := List.find?_some hp
      simp only [Function.comp, Bool.and_eq_true, beq_iff_eq] at this
      rw [← this.1, ← this.2]
    rw [this]
    simp [hv]

theorem sparse_zeros {P : Conv} {fn : Fn} {sk : Bool} {o : Obj Val} (h : o.WF) {rows : List (List Val)}
    (hn : NewRows fn true sk o (List.range o.pts.len) (List.range o.fts.len) rows)
    (ht : OneType [((entries o).map (fun e => (rows[e.1]?.bind (fun row => row[e.2.1]?)).getD .none))]) :
    ∃ rs, calcEntries (fn.validated true sk) (entries o) = .ok rs ∧
      ∀ (i j : Nat), i < o.pts.len → j < o.fts.len →
        ((denseRows o.pts.len o.fts.len (retype P rs))[i]?.bind (fun row => row[j]?)).map canon =
          (rows[i]?.bind (fun row => row[j]?)).map canon := by
  have hel : ∀ i j, i < o.pts.len → j < o.fts.len → ∃ v w, o.elem? i j = some v ∧
      (rows[i]?.bind (fun row => row[j]?)) = some w ∧ NewValue fn true sk v i j w := by
    intro i j hi hj
    unfold NewRows at hn
    rw [List.forall₂_iff_get] at hn
    obtain ⟨n1, n2⟩ := hn
    have hi' : i < rows.length := by rw [← n1]; simpa using hi
    have := n2 i (by simpa using hi) hi'
    rw [List.forall₂_iff_get] at this
    obtain ⟨m1, m2⟩ := this
    have hj' : j < rows[i].length := by
      have : (List.range o.fts.len).length = rows[i].length := m1
      rw [← this]; simpa using hj
    obtain ⟨v, hv, hw⟩ := m2 j (by simpa using hj) hj'
    simp only [List.get_eq_getElem, List.getElem_range] at hv hw
    exact ⟨v, rows[i][j], hv, by simp [hi', hj'], hw⟩
  have hent : ∀ e ∈ entries o, o.elem? e.1 e.2.1 = some e.2.2 ∧ e.1 < o.pts.len ∧ e.2.1 < o.fts.len := by
    intro e he
    unfold entries at he
    obtain ⟨⟨a, b⟩, hab, rfl⟩ := List.mem_map.mp he
    obtain ⟨ha, hb⟩ := mem_cells.mp (List.mem_filter.mp hab).1
    obtain ⟨v, hv⟩ := elem_some h ha hb
    exact ⟨by simp [hv], ha, hb⟩
  have hval : ∀ e ∈ entries o, fn.validated true sk e.2.2 e.1 e.2.1 =
      .ok ((rows[e.1]?.bind (fun row => row[e.2.1]?)).getD .none) := by
    intro e he
    obtain ⟨e1, e2, e3⟩ := hent e he
    obtain ⟨v, w, hv, hw, hnew⟩ := hel e.1 e.2.1 e2 e3
    rw [e1] at hv
    cases hv
    rw [hw]
    exact validated_of_new hnew
  let rs : List Entry := (entries o).map (fun e => (e.1, e.2.1, (rows[e.1]?.bind (fun row => row[e.2.1]?)).getD .none))
  have hrs : List.Forall₂ (fun e r => r.1 = e.1 ∧ r.2.1 = e.2.1 ∧
      r.2.2 = (rows[e.1]?.bind (fun row => row[e.2.1]?)).getD .none) (entries o) rs := by
    rw [List.forall₂_map_right_iff, List.forall₂_same]
    intro e _
    exact ⟨rfl, rfl, rfl⟩
  refine ⟨rs, ?_, ?_⟩
  · rw [calcEntries_iff, List.forall₂_map_right_iff, List.forall₂_same]
    intro e he
    exact ⟨rfl, rfl, hval e he⟩
  · intro i j hi hj
    obtain ⟨v, w, hv, hw, hnew⟩ := hel i j hi hj
    have ht' : OneType [rs.map (fun e => e.2.2)] := by
      simp only [rs, List.map_map]
      exact ht
    have hre := retype_rel (P := P) ht'
    have hf := entries_find h hv
    rw [hw]
    have hd : ((denseRows o.pts.len o.fts.len (retype P rs))[i]?.bind (fun row => row[j]?)) =
        some ((((retype P rs).find? (fun e => e.1 == i && e.2.1 == j)).map (fun e => e.2.2)).getD (.int true 0)) := by
      simp [denseRows, hi, hj]
    rw [hd, Option.map_some, Option.map_some]
    congr 1
    have hrsf : rs.find? (fun e => e.1 == i && e.2.1 == j) =
        ((entries o).find? (fun e => e.1 == i && e.2.1 == j)).map
          (fun e => (e.1, e.2.1, (rows[e.1]?.bind (fun row => row[e.2.1]?)).getD .none)) := by
      simp only [rs]
      rw [List.find?_map]
      rfl
    rw [hf] at hrsf
    by_cases hz : canon v = .num (.fin 0)
    · rw [if_pos hz] at hrsf
      rcases find_rel (R := fun a b => canon b = canon a) hre i j with ⟨_, b⟩ | ⟨e, r, a, _, _⟩
      · rw [b]
        cases hnew with
        | zero => rfl
        | skipped hh => exact absurd ⟨.inl rfl, hz⟩ hh
        | value hh => exact absurd ⟨.inl rfl, hz⟩ hh
      · rw [hrsf] at a; cases a
    · rw [if_neg hz] at hrsf
      simp only [Option.map_some] at hrsf
      rw [hw] at hrsf
      rcases find_rel (R := fun a b => canon b = canon a) hre i j with ⟨a, _⟩ | ⟨e, r, a, b, c⟩
      · rw [hrsf] at a; cases a
      · rw [hrsf] at a
        cases a
        rw [b]
        exact c

/-- The first row does not look like names, however the values are stored. -/
def Plain (str : Val → String) (rows : List (List Val)) : Prop :=
  ∀ rows', List.Forall₂ (List.Forall₂ (fun v w => canon w = canon v)) rows rows' → ¬ UnderHeader str rows'

/-- **C86 (Sparse, zeros preserved).**  On all points and features, a Sparse object asked to preserve zeros shows what the
function gives for each element, if the new values of the elements which are not zero have one type and the first point
does not look like a row of names. -/
theorem C86_sparse_zeros {P : Conv} {fn : Fn} {sk : Bool} {o : Obj Val} (h : o.WF) {rows : List (List Val)}
    (hn : NewRows fn true sk o (List.range o.pts.len) (List.range o.fts.len) rows)
    (ht : OneType [((entries o).map (fun e => (rows[e.1]?.bind (fun row => row[e.2.1]?)).getD .none))])
    (hp : Plain P.str rows) :
    ∃ r, sparseCalc P (fn.validated true sk) .all .all o = .ok r ∧ Shows r rows o.pts.len o.fts.len := by
  obtain ⟨rs, r1, r2⟩ := sparse_zeros (P := P) h hn ht
  obtain ⟨s1, s2⟩ := forall₂_shape hn
  simp only [List.length_range] at s1 s2
  have hd1 : (denseRows o.pts.len o.fts.len (retype P rs)).length = o.pts.len := by simp [denseRows]
  have hd2 : ∀ r ∈ denseRows o.pts.len o.fts.len (retype P rs), r.length = o.fts.len := by
    intro r hr
    simp only [denseRows, List.mem_map] at hr
    obtain ⟨_, _, rfl⟩ := hr
    simp
  have hrel : List.Forall₂ (List.Forall₂ (fun v w => canon w = canon v)) rows
      (denseRows o.pts.len o.fts.len (retype P rs)) := by
    rw [List.forall₂_iff_get]
    refine ⟨s1.trans hd1.symm, ?_⟩
    intro i h1 h2
    rw [List.forall₂_iff_get]
    have l1 := s2 _ (List.getElem_mem h1)
    have l2 := hd2 _ (List.getElem_mem h2)
    refine ⟨l1.trans l2.symm, ?_⟩
    intro j h3 h4
    simp only [List.get_eq_getElem] at h3 h4 ⊢
    have := r2 i j (by omega) (by omega)
    simp only [List.getElem?_eq_getElem h1, List.getElem?_eq_getElem h2, Option.bind_some,
      List.getElem?_eq_getElem h3, List.getElem?_eq_getElem h4, Option.map_some] at this
    simpa using this
  obtain ⟨r, e1, e2⟩ := newObject_shows (str := P.str) hd1 hd2 (hp _ hrel)
  refine ⟨r, ?_, e2.wf, e2.plen, e2.flen, e2.pnames, e2.fnames, ?_⟩
  · have hl : limits o .all .all = .ok (none, none) := rfl
    unfold sparseCalc
    simp only [hl, r1, bind, Except.bind, and_self, if_true, e1]
  · intro i j
    rw [e2.elems, canon_rows hrel]

/-- **C86 violated (Sparse, zeros preserved, chosen points).**  For points [1] and features [1] of a Sparse object with
2 points and 2 features the result should have one element; it has four.  If only points or only
features are given there is a TypeError. -/
theorem C86_sparse_subset_violated (P : Conv) (a b c d : Int) (ha : a ≠ 0) (hb : b ≠ 0) (hc : c ≠ 0) (hd : d ≠ 0) :
    let o : Obj Val := ⟨[[.int true a, .int true b], [.int true c, .int true d]], ⟨2, none⟩, ⟨2, none⟩⟩
    let g := (Fn.one (fun v => .ok (some v))).validated true false
    (∃ r, sparseCalc P g (.list [.int 1]) (.list [.int 1]) o = .ok r ∧ r.pts.len = 2 ∧ r.fts.len = 2) ∧
    (∃ r, calculateOnElements P .frame (.one (fun v => .ok (some v))) true false (.list [.int 1]) (.list [.int 1]) o = .ok r ∧
      r.pts.len = 1 ∧ r.fts.len = 1) ∧
    sparseCalc P g (.list [.int 1]) .all o = .error .TypeError ∧
    sparseCalc P g .all (.list [.int 1]) o = .error .TypeError := by
  intro o g
  have he : entries o = [(0, 0, .int true a), (0, 1, .int true b), (1, 0, .int true c), (1, 1, .int true d)] := by
    have z : ∀ x : Int, x ≠ 0 → pyEq (.int true x) zeroVal = false := by
      intro x hx
      simp [pyEq, zeroVal, numEq, Val.num, Flt.eq, hx]
    simp [entries, cells, List.range_succ, stored, o, Obj.elem?, z a ha, z b hb, z c hc, z d hd]
  have hl : limits o (.list [.int 1]) (.list [.int 1]) = .ok (some [1], some [1]) := rfl
  have hl2 : limits o (.list [.int 1]) .all = .ok (some [1], none) := rfl
  have hl3 : limits o .all (.list [.int 1]) = .ok (none, some [1]) := rfl
  have hg : ∀ (x : Int), x ≠ 0 → ∀ i j, g (.int true x) i j = .ok (.int true x) := by
    intro x hx i j
    have z : pyEq (.int true x) zeroVal = false := by simp [pyEq, zeroVal, numEq, Val.num, Flt.eq, hx]
    simp [g, Fn.validated, z, Fn.call, bind, Except.bind, checkReturn]
  refine ⟨?_, ?_, ?_, ?_⟩
  · unfold sparseCalc
    simp only [hl, he, bind, Except.bind]
    refine ⟨_, by
      simp only [subset, inSubset, bind, Except.bind, pure, Except.pure]
      simp [sparseSubset, calcEntries, hg d hd, bind, Except.bind, pure, Except.pure, extent, newObject, denseRows,
        List.range_succ, nimbleData, autoDetect, looksLikeHeader, saysPointNames, allText, valOps, takePointNames,
        takeFeatureNames, finishData, sameLengths, replaceMissing, convertRows, Obj.make, AxisSt.init, chosenNames]
      rfl, rfl, rfl⟩
  · have hsel : Selects o.pts (.list [.int 1]) [1] := .inr ⟨[.int 1], rfl, by simp, rfl⟩
    have hself : Selects o.fts (.list [.int 1]) [1] := .inr ⟨[.int 1], rfl, by simp, rfl⟩
    have hwf : o.WF := ⟨rfl, by simp [o], none_ok _, none_ok _⟩
    obtain ⟨r, r1, r2⟩ := C86_calculate (P := P) (kind := .frame) (fn := .one (fun v => .ok (some v))) (pz := true)
      (sk := false) hwf hsel hself (rows := [[.int true d]])
      (.cons (.cons ⟨.int true d, rfl, validated_new (hg d hd 1 1)⟩ .nil) .nil) (fun hc => by cases hc.1)
      (fun _ => by rintro ⟨_, _, _, he, _⟩; cases he)
    exact ⟨r, r1, r2.plen, r2.flen⟩
  · unfold sparseCalc
    simp only [hl2, he, bind, Except.bind]
    simp [subset, inSubset, bind, Except.bind, pure, Except.pure]
  · unfold sparseCalc
    simp only [hl3, he, bind, Except.bind]
    simp [subset, inSubset, bind, Except.bind, pure, Except.pure]

/-! ### Examples -/

/-- `C86_calculate`: point 'b' and features 2, 0 of six elements, each times ten. -/
example (P : Conv) :
    let o : Obj Val := ⟨[[.int false 1, .int false 2, .int false 3], [.int false 4, .int false 5, .int false 6]],
      ⟨2, some ⟨[("a", 0), ("b", 1)], [some "a", some "b"]⟩⟩, ⟨3, none⟩⟩
    let fn := Fn.one (fun v => match v with | .int _ i => .ok (some (.int false (10 * i))) | _ => .ok none)
    Selects o.pts (.name "b") [1] ∧ Selects o.fts (.list [.int (-1), .int 0]) [2, 0] ∧
      NewRows fn false false o [1] [2, 0] [[.int false 60, .int false 40]] ∧
      OneType [[.int false 60, .int false 40]] := by
  refine ⟨.inr ⟨[.str "b"], rfl, by simp, rfl⟩, .inr ⟨[.int (-1), .int 0], rfl, by simp, rfl⟩, ?_, ?_⟩
  · exact .cons (.cons ⟨.int false 6, rfl, validated_new (by rfl)⟩ (.cons ⟨.int false 4, rfl, validated_new (by rfl)⟩ .nil)) .nil
  · exact .inr (.inl (by simp))

/-- `C86_matching`: which elements of the diagonal are positive. -/
example : (Matcher.three (fun v i j => .ok (.bool false (i == j && positive v)))).Defined ∧
    (Matcher.three (fun v i j => .ok (.bool false (i == j && positive v)))).Says (.int false 3) 1 1 true ∧
    (Matcher.three (fun v i j => .ok (.bool false (i == j && positive v)))).Says (.int false 3) 0 1 false :=
  ⟨fun f hf => by cases hf; exact ⟨_, rfl⟩, ⟨.bool false true, rfl, by rfl⟩, ⟨.bool false false, rfl, by rfl⟩⟩

/-- `C86_count`: the missing elements. -/
example : (∀ v, ∃ np, (fun v => (.ok (some (.bool false (canon v == .missing))) : Res (Option Val))) v =
      .ok (some (.bool np (canon v == .missing)))) ∧
    ∀ a b : Val, canon a = canon b → (canon a == .missing) = (canon b == .missing) :=
  ⟨fun _ => ⟨_, rfl⟩, fun a b h => by rw [h]⟩

end Nimble.Elements
