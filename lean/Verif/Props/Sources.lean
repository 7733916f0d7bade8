import Verif.Model.Sources
import Verif.Props.Create
import Verif.Props.Keep
import Verif.Props.HighDim

/-!
# C90 `nimble.data` from dictionaries, lists of elements and lists of vectors
-/

namespace Nimble.Sources
open Nimble
variable {V : Type}

/-! ## The constructor -/

theorem finish_inv {C : CellOps V} {rows : List (List V)} {n : Nat} (hne : rows ≠ [])
    (hw : ∀ r ∈ rows, r.length = n) {pn fn : Option (List (Option String))} (h0 : n = 0 → (fn.getD []).length = 0)
    {o : Obj V} (h : finishData C rows pn fn = .ok o) :
    HoldsRows o rows n pn fn ∧ goodNames rows.length pn ∧ goodNames n fn := by
  unfold finishData at h
  by_cases hs : sameLengths rows = true
  · rw [if_pos hs] at h
    match rows, hne with
    | [] :: rest, _ =>
      have e : 0 = n := by simpa using hw [] (by simp)
      subst e
      have hrest : rest = List.replicate rest.length [] := by
        apply List.eq_replicate_iff.2
        exact ⟨rfl, fun r hr => List.length_eq_zero_iff.1 (hw r (by simp [hr]))⟩
      have hd : emptyRows C (rest.length + 1) 0 = [] :: rest := by
        unfold emptyRows
        rw [List.replicate_succ, List.replicate_zero, ← hrest]
      simp only [convertRows, h0 rfl] at h
      rw [hd] at h
      obtain ⟨g1, g2, g3, g4, g5, g6, g7, g8, _⟩ := make_inv h rfl hw
      exact ⟨⟨g1, g2, g4, g7, g8⟩, g5, g6⟩
    | (v :: r) :: rest, _ =>
      have e : r.length + 1 = n := by simpa using hw (v :: r) (by simp)
      simp only [convertRows, e] at h
      obtain ⟨g1, g2, g3, g4, g5, g6, g7, g8, _⟩ := make_inv h rfl hw
      exact ⟨⟨g1, g2, g4, g7, g8⟩, g5, g6⟩
  · rw [if_neg hs] at h; cases h

theorem finish_good {C : CellOps V} {rows : List (List V)} {n : Nat} (hne : rows ≠ [])
    (hw : ∀ r ∈ rows, r.length = n) {pn fn : Option (List (Option String))}
    (hp : goodNames rows.length pn) (hf : goodNames n fn) : ∃ o, finishData C rows pn fn = .ok o := by
  by_cases hn : 0 < n
  · obtain ⟨o, h, _⟩ := finishData_ok C hn hne hw hp hf
    exact ⟨o, h⟩
  · have e : n = 0 := by omega
    subst e
    have hs : sameLengths rows = true := (sameLengths_iff rows).2 (fun r h r' h' => by rw [hw r h, hw r' h'])
    have hl : (fn.getD []).length = 0 := by
      cases fn with
      | none => rfl
      | some l => exact hf.1
    unfold finishData
    rw [if_pos hs]
    match rows, hne with
    | [] :: rest, _ => simp only [convertRows, hl]; exact make_good hp hf
    | (v :: r) :: rest, _ => exact absurd (hw (v :: r) (by simp)) (by simp)

theorem finish_lengths {C : CellOps V} {rows : List (List V)} {pn fn : Option (List (Option String))}
    {o : Obj V} (h : finishData C rows pn fn = .ok o) : ∀ r ∈ rows, ∀ r' ∈ rows, r.length = r'.length := by
  unfold finishData at h
  by_cases hs : sameLengths rows = true
  · exact (sameLengths_iff rows).1 hs
  · rw [if_neg hs] at h; cases h

/-! ## Reordering by names -/

/-- A list of names naming exactly these keys, each once. -/
def Reorders (names : List (Option String)) (keys : List String) : Prop := names.Perm (keys.map some)

theorem reordered_spec {A : Type} {found : List String} (hn : found.Nodup) {data : List A}
    (hl : data.length = found.length) : ∀ {names : List (Option String)}, (∀ n ∈ names, n ∈ found.map some) →
    List.Forall₂ (fun n v => ∃ (k : String) (i : Nat), n = some k ∧ found[i]? = some k ∧ data[i]? = some v) names
      (reordered found names data) := by
  intro names
  induction names with
  | nil => intro _; exact List.Forall₂.nil
  | cons n ns ih =>
    intro h
    obtain ⟨k, hk, rfl⟩ := List.mem_map.1 (h n (by simp))
    have hi : found.idxOf k < found.length := List.idxOf_lt_length_iff.2 hk
    obtain ⟨v, hv⟩ : ∃ v, data[found.idxOf k]? = some v := ⟨_, List.getElem?_eq_getElem (by omega)⟩
    have e : reordered found (some k :: ns) data = v :: reordered found ns data := by
      unfold reordered
      rw [List.filterMap_cons]
      simp only [Option.bind_some, hv]
    rw [e]
    refine List.Forall₂.cons ⟨k, _, rfl, ?_, hv⟩ (ih (fun m hm => h m (by simp [hm])))
    rw [List.getElem?_eq_getElem hi, List.getElem_idxOf hi]

/-- What `_dictNames` gives: the names in the end, and every entry moved to the place of its name. -/
theorem dictNames_inv {A : Type} {arg : NamesArg} {found : List String} (hn : found.Nodup) {data : List A}
    (hl : data.length = found.length) {r : Option (List (Option String)) × List A}
    (h : dictNamesS arg found data = .ok r) :
    ∃ order : List (Option String), Reorders order found ∧
      List.Forall₂ (fun n v => ∃ (k : String) (i : Nat), n = some k ∧ found[i]? = some k ∧ data[i]? = some v) order r.2 ∧
      ((arg = .no ∧ r.1 = none ∧ order = found.map some) ∨
       ((arg = .auto ∨ arg = .yes) ∧ r.1 = some order ∧ order = found.map some) ∨
       (arg = .given order ∧ r.1 = some order)) := by
  have same : List.Forall₂ (fun n v => ∃ (k : String) (i : Nat), n = some k ∧ found[i]? = some k ∧ data[i]? = some v)
      (found.map some) data := by
    rw [List.forall₂_iff_get]
    refine ⟨by simp [hl], fun i h1 h2 => ?_⟩
    refine ⟨found[i]'(by simpa using h1), i, ?_, ?_, ?_⟩
    · simp
    · simp
    · simp
  cases arg with
  | no => cases h; exact ⟨_, List.Perm.refl _, same, Or.inl ⟨rfl, rfl, rfl⟩⟩
  | auto => cases h; exact ⟨_, List.Perm.refl _, same, Or.inr (Or.inl ⟨Or.inl rfl, rfl, rfl⟩)⟩
  | yes => cases h; exact ⟨_, List.Perm.refl _, same, Or.inr (Or.inl ⟨Or.inr rfl, rfl, rfl⟩)⟩
  | given l =>
    simp only [dictNamesS, dictNamesGiven] at h
    by_cases h1 : l = found.map some
    · rw [if_pos h1] at h
      cases h
      subst h1
      exact ⟨_, List.Perm.refl _, same, Or.inr (Or.inr ⟨rfl, rfl⟩)⟩
    · rw [if_neg h1] at h
      by_cases h2 : sortable l = false
      · rw [if_pos h2] at h; cases h
      · rw [if_neg h2] at h
        by_cases h3 : l.Perm (found.map some)
        · rw [if_pos h3] at h
          cases h
          exact ⟨l, h3, reordered_spec hn hl (fun n hm => h3.subset hm), Or.inr (Or.inr ⟨rfl, rfl⟩)⟩
        · rw [if_neg h3] at h; cases h

/-- Names given for the keys of a dictionary are accepted exactly when they are the keys in some order. -/
def Accepts (arg : NamesArg) (keys : List String) : Prop :=
  match arg with
  | .given l => Reorders l keys
  | _ => True

theorem dictNames_ok {A : Type} {arg : NamesArg} {found : List String} {data : List A}
    (h : Accepts arg found) : ∃ r, dictNamesS arg found data = .ok r := by
  cases arg with
  | no => exact ⟨_, rfl⟩
  | auto => exact ⟨_, rfl⟩
  | yes => exact ⟨_, rfl⟩
  | given l =>
    simp only [dictNamesS, dictNamesGiven]
    by_cases h1 : l = found.map some
    · rw [if_pos h1]; exact ⟨_, rfl⟩
    · rw [if_neg h1]
      have h2 : ¬ sortable l = false := by
        have : sortable l = true := by
          unfold sortable
          rw [Bool.or_eq_true]
          left
          rw [List.all_eq_true]
          intro x hx
          have := h.subset hx
          obtain ⟨k, _, rfl⟩ := List.mem_map.1 this
          rfl
        rw [this]; simp
      have h3 : l.Perm (found.map some) := h
      rw [if_neg h2, if_pos h3]
      exact ⟨_, rfl⟩

theorem dictNames_refused {A : Type} {arg : NamesArg} {found : List String} {data : List A}
    (h : ¬ Accepts arg found) : ∃ e, dictNamesS arg found data = .error e := by
  cases arg with
  | no => exact absurd trivial h
  | auto => exact absurd trivial h
  | yes => exact absurd trivial h
  | given l =>
    simp only [dictNamesS, dictNamesGiven]
    have h1 : l ≠ found.map some := fun e => h (by unfold Accepts Reorders; rw [e])
    rw [if_neg h1]
    by_cases h2 : sortable l = false
    · rw [if_pos h2]; exact ⟨_, rfl⟩
    · have h3 : ¬ l.Perm (found.map some) := h
      rw [if_neg h2, if_neg h3]; exact ⟨_, rfl⟩

/-! ## Lists of dictionaries -/

theorem get_at {A : Type} {d : PyDict String A} (hn : (PyDict.keys d).Nodup) {k : String} {v : A} {i : Nat}
    (h1 : (PyDict.keys d)[i]? = some k) (h2 : (PyDict.values d)[i]? = some v) : PyDict.get? d k = some v := by
  apply PyDict.get?_of_mem hn
  unfold PyDict.keys at h1
  unfold PyDict.values at h2
  rw [List.getElem?_map] at h1 h2
  cases hd : d[i]? with
  | none => rw [hd] at h1; cases h1
  | some p =>
    rw [hd] at h1 h2
    cases h1; cases h2
    exact List.mem_of_getElem? hd

theorem sameKeys_iff {d e : PyDict String V} :
    sameKeySet d e = true ↔ ∀ k, k ∈ PyDict.keys d ↔ k ∈ PyDict.keys e := by
  unfold sameKeySet
  simp only [Bool.and_eq_true, List.all_eq_true, decide_eq_true_eq]
  exact ⟨fun h k => ⟨h.1 k, h.2 k⟩, fun h => ⟨fun k hk => (h k).1 hk, fun k hk => (h k).2 hk⟩⟩

theorem lookup_ok {d : PyDict String V} {n : Option String} {v : V} :
    lookup d n = .ok v ↔ ∃ k, n = some k ∧ PyDict.get? d k = some v := by
  cases n with
  | none => simp [lookup]
  | some s =>
    simp only [lookup]
    cases h : PyDict.get? d s <;> simp [h]

theorem mapRes_forall₂ {A B : Type} {f : A → Res B} : ∀ {l : List A} {r : List B},
    mapRes f l = .ok r ↔ List.Forall₂ (fun a b => f a = .ok b) l r := by
  intro l
  induction l with
  | nil =>
    intro r
    simp only [mapRes, List.forall₂_nil_left_iff]
    exact ⟨fun h => by cases h; rfl, fun h => by rw [h]⟩
  | cons a as ih =>
    intro r
    simp only [mapRes, bind, Except.bind, pure, Except.pure]
    cases h1 : f a with
    | error e =>
      refine ⟨fun h => (by cases h), fun h => ?_⟩
      cases h with
      | cons h _ => rw [h1] at h; cases h
    | ok b =>
      dsimp only
      cases h2 : mapRes f as with
      | error e =>
        refine ⟨fun h => (by cases h), fun h => ?_⟩
        cases h with
        | cons _ h => rw [ih.2 h] at h2; cases h2
      | ok bs =>
        dsimp only
        constructor
        · intro h; cases h; exact List.Forall₂.cons h1 (ih.1 h2)
        · intro h
          cases h with
          | cons g1 g2 =>
            rw [h1] at g1
            rw [ih.2 g2] at h2
            cases g1; cases h2; rfl

theorem emptyDictArg_ok {keys : List String} {fn fn' : NamesArg} (h : emptyDictArg keys fn = .ok fn') :
    (fn' = fn ∨ (keys = [] ∧ fn = .auto ∧ fn' = .no)) ∧ ¬ (keys = [] ∧ fn = .yes) := by
  unfold emptyDictArg at h
  by_cases h1 : keys = []
  · rw [if_pos h1] at h
    by_cases h2 : fn = .yes
    · rw [if_pos h2] at h; cases h
    · rw [if_neg h2] at h
      by_cases h3 : fn = .auto
      · rw [if_pos h3] at h; cases h; exact ⟨Or.inr ⟨h1, h3, rfl⟩, fun c => h2 c.2⟩
      · rw [if_neg h3] at h; cases h; exact ⟨Or.inl rfl, fun c => h2 c.2⟩
  · rw [if_neg h1] at h; cases h; exact ⟨Or.inl rfl, fun c => h1 c.1⟩

/-- The feature names of an object made from dictionaries with these keys in this order. -/
def shownNames (fn : NamesArg) (order : List String) : List (Option String) :=
  match fn with
  | .no => List.replicate order.length none
  | _ => order.map some

/-- The point names asked for by a list, else none. -/
def askedNames (pn : NamesArg) (n : Nat) : List (Option String) :=
  match pn with
  | .given l => l
  | _ => List.replicate n none

theorem strings_of_reorders {order : List (Option String)} {keys : List String} (h : Reorders order keys) :
    ∃ l : List String, order = l.map some ∧ l.Perm keys := by
  have : ∀ n ∈ order, ∃ k, n = some k := by
    intro n hn
    obtain ⟨k, _, rfl⟩ := List.mem_map.1 (h.subset hn)
    exact ⟨k, rfl⟩
  have e : order = order.reduceOption.map some := by
    clear h
    induction order with
    | nil => rfl
    | cons a as ih =>
      obtain ⟨k, rfl⟩ := this a (by simp)
      rw [List.reduceOption_cons_of_some, List.map_cons, ← ih (fun n hn => this n (by simp [hn]))]
  refine ⟨order.reduceOption, e, ?_⟩
  have := List.Perm.filterMap id h
  simpa [List.reduceOption] using this

theorem elem_of_rows {o : Obj V} {rows : List (List V)} (h : o.data = rows) (i j : Nat) :
    o.elem? i j = (rows[i]?).bind (·[j]?) := by
  unfold Obj.elem?; rw [h]

/-- **C90 (list of dictionaries).**  What `nimble.data([{…}, {…}, …])` holds: one point per dictionary, one feature per
key, the features in the order of the first dictionary or in the order the user names them, and in the cell of point
`i` and feature `k` the value of key `k` in dictionary `i`, whatever order that dictionary has its keys in. -/
theorem C90_list_of_dicts {C : CellOps V} {pn fn : NamesArg} {first : PyDict String V}
    {rest : List (PyDict String V)} (hn : ∀ d ∈ first :: rest, (PyDict.keys d).Nodup) {o : Obj V}
    (h : dataFromDicts C pn fn first rest = .ok o) :
    o.WF ∧ o.pts.len = (first :: rest).length ∧ o.fts.len = (PyDict.keys first).length ∧ pn ≠ .yes ∧
      (∀ d ∈ first :: rest, ∀ k, k ∈ PyDict.keys d ↔ k ∈ PyDict.keys first) ∧
      o.pts.getNames = askedNames pn (first :: rest).length ∧
      goodNames (first :: rest).length (plainNames pn) ∧ ¬ (PyDict.keys first = [] ∧ fn = .yes) ∧
      ∃ order : List String, order.Perm (PyDict.keys first) ∧
        (∀ l, fn = .given l → l = order.map some) ∧ ((∀ l, fn ≠ .given l) → order = PyDict.keys first) ∧
        o.fts.getNames = shownNames fn order ∧
        ∀ (i j : Nat) d k, (first :: rest)[i]? = some d → order[j]? = some k →
          ∃ v, PyDict.get? d k = some v ∧ o.elem? i j = some (C.stored v) := by
  unfold dataFromDicts at h
  by_cases hpn : pn = .yes
  · rw [if_pos hpn] at h; cases h
  rw [if_neg hpn] at h
  simp only [bind, Except.bind] at h
  cases h1 : emptyDictArg (PyDict.keys first) fn with
  | error e => rw [h1] at h; cases h
  | ok fn' =>
  rw [h1] at h
  dsimp only at h
  cases h2 : dictNamesS fn' (PyDict.keys first) (PyDict.values first) with
  | error e => rw [h2] at h; cases h
  | ok n =>
  rw [h2] at h
  dsimp only at h
  cases h3 : mapRes (dictRow first (n.1.getD ((PyDict.keys first).map some))) rest with
  | error e => rw [h3] at h; cases h
  | ok rows =>
  rw [h3] at h
  dsimp only at h
  have hn1 := hn first (by simp)
  obtain ⟨hfn, hyes⟩ := emptyDictArg_ok h1
  obtain ⟨ordo, hperm, hall, hcase⟩ := dictNames_inv hn1 (by simp [PyDict.keys, PyDict.values]) h2
  obtain ⟨order, rfl, hperm'⟩ := strings_of_reorders hperm
  have hord : n.1.getD ((PyDict.keys first).map some) = order.map some := by
    rcases hcase with ⟨_, e, e'⟩ | ⟨_, e, _⟩ | ⟨_, e⟩
    · rw [e, e']; rfl
    · rw [e]; rfl
    · rw [e]; rfl
  rw [hord] at h3
  rw [mapRes_forall₂] at h3
  -- every row holds the values of its dictionary in the order of the names
  have hrow1 : List.Forall₂ (fun k v => PyDict.get? first k = some v) order n.2 := by
    rw [List.forall₂_map_left_iff] at hall
    refine hall.imp ?_
    rintro k v ⟨k', i, hk, e1, e2⟩
    cases hk
    exact get_at hn1 e1 e2
  have hrow : List.Forall₂ (fun (d : PyDict String V) r => (∀ k, k ∈ PyDict.keys d ↔ k ∈ PyDict.keys first) ∧
      List.Forall₂ (fun k v => PyDict.get? d k = some v) order r) (first :: rest) (n.2 :: rows) := by
    refine List.Forall₂.cons ⟨fun _ => Iff.rfl, hrow1⟩ (h3.imp ?_)
    intro d r hd
    unfold dictRow at hd
    by_cases hs : sameKeySet d first = true
    · rw [if_pos hs] at hd
      refine ⟨sameKeys_iff.1 hs, ?_⟩
      rw [mapRes_forall₂, List.forall₂_map_left_iff] at hd
      refine hd.imp ?_
      intro k v hk
      obtain ⟨k', e, hk⟩ := lookup_ok.1 hk
      cases e
      exact hk
    · rw [if_neg hs] at hd; cases hd
  have hlen : (PyDict.keys first).length = order.length := hperm'.length_eq.symm
  have hmem : ∀ r ∈ n.2 :: rows, r.length = order.length := by
    intro r hr
    obtain ⟨i, hi⟩ := List.mem_iff_getElem?.1 hr
    have hl := hrow.length_eq
    have hi' : i < (first :: rest).length := by
      rw [hl]; exact (List.getElem?_eq_some_iff.1 hi).1
    have := (List.forall₂_iff_get.1 hrow).2 i hi' (by rw [← hl]; exact hi')
    have e : (n.2 :: rows).get ⟨i, by rw [← hl]; exact hi'⟩ = r := by
      have := (List.getElem?_eq_some_iff.1 hi).2
      simpa using this
    rw [e] at this
    exact this.2.length_eq.symm
  have hw : ∀ r ∈ replaceMissing C (n.2 :: rows), r.length = order.length := by
    intro r hr
    rw [replaceMissing_eq] at hr
    obtain ⟨r0, h0, rfl⟩ := List.mem_map.1 hr
    rw [List.length_map, hmem r0 h0]
  have hgood0 : order.length = 0 → (n.1.getD []).length = 0 := by
    intro e
    rcases hcase with ⟨_, e', _⟩ | ⟨_, e', _⟩ | ⟨_, e'⟩ <;> rw [e'] <;> simp [e]
  obtain ⟨hh, hg, hf⟩ := finish_inv (by simp [replaceMissing]) hw hgood0 h
  have hlr : (replaceMissing C (n.2 :: rows)).length = (first :: rest).length := by
    rw [replaceMissing_eq, List.length_map]; exact hrow.length_eq.symm
  refine ⟨hh.wf, ?_, ?_, hpn, ?_, ?_, ?_, hyes, order, hperm', ?_, ?_, ?_, ?_⟩
  · rw [← hh.wf.rows, hh.data, hlr]
  · rw [hh.fts, hlen]
  · intro d hd
    obtain ⟨i, hi, e⟩ := List.mem_iff_getElem.1 hd
    have := (List.forall₂_iff_get.1 hrow).2 i hi (by rw [← hrow.length_eq]; exact hi)
    simp only [List.get_eq_getElem] at this
    rw [e] at this
    exact this.1
  · rw [hh.pnames, hlr]
    cases pn <;> rfl
  · rw [hlr] at hg; exact hg
  · intro l hl
    rcases hfn with e | ⟨_, e, _⟩
    · rw [e] at hcase
      rcases hcase with ⟨e', _⟩ | ⟨e', _⟩ | ⟨e', _⟩
      · rw [hl] at e'; cases e'
      · rw [hl] at e'; rcases e' with e' | e' <;> cases e'
      · rw [hl] at e'; cases e'; rfl
    · rw [hl] at e; cases e
  · intro hl
    have inj : ∀ {a b : List String}, a.map some = b.map some → a = b := by
      intro a b e
      exact List.map_injective_iff.2 (fun _ _ h => Option.some.inj h) e
    rcases hcase with ⟨_, _, e'⟩ | ⟨_, _, e'⟩ | ⟨e', _⟩
    · exact inj e'
    · exact inj e'
    · rcases hfn with e | ⟨_, _, e⟩
      · rw [e] at e'; exact absurd e' (hl _)
      · rw [e] at e'; cases e'
  · rw [hh.fnames]
    rcases hfn with e | ⟨e1, e2, e3⟩
    · subst e
      rcases hcase with ⟨e', e'', _⟩ | ⟨e', e'', _⟩ | ⟨e', e''⟩
      · rw [e', e'']; rfl
      · rw [e'']
        rcases e' with rfl | rfl <;> rfl
      · rw [e'']
        rw [e']; rfl
    · rw [e1] at hlen
      have : order = [] := List.length_eq_zero_iff.1 hlen.symm
      subst this
      rw [e2]
      rcases hcase with ⟨e', e'', _⟩ | ⟨e', e'', _⟩ | ⟨e', e''⟩ <;> rw [e''] <;> rfl
  · intro i j d k hi hj
    rw [elem_of_rows hh.data, replaceMissing_eq, List.getElem?_map]
    have hi' := (List.getElem?_eq_some_iff.1 hi).1
    have := (List.forall₂_iff_get.1 hrow).2 i hi' (by rw [← hrow.length_eq]; exact hi')
    simp only [List.get_eq_getElem] at this
    rw [(List.getElem?_eq_some_iff.1 hi).2] at this
    have hj' := (List.getElem?_eq_some_iff.1 hj).1
    have h2 := (List.forall₂_iff_get.1 this.2).2 j hj' (by rw [← this.2.length_eq]; exact hj')
    simp only [List.get_eq_getElem] at h2
    rw [(List.getElem?_eq_some_iff.1 hj).2] at h2
    refine ⟨_, h2, ?_⟩
    rw [List.getElem?_eq_getElem (by rw [← hrow.length_eq]; exact hi')]
    simp only [Option.map_some, Option.bind_some, List.getElem?_map]
    rw [List.getElem?_eq_getElem (by rw [← this.2.length_eq]; exact hj')]
    rfl

theorem shown_good {fn : NamesArg} {order keys : List String} (hp : order.Perm keys) (hn : keys.Nodup) :
    goodNames order.length (some (order.map some)) := by
  refine ⟨by simp, ?_⟩
  have : (order.map some).reduceOption = order := by
    clear hp
    induction order with
    | nil => rfl
    | cons a as ih => rw [List.map_cons, List.reduceOption_cons_of_some, ih]
  rw [this]
  exact hp.symm.nodup hn

/-- **C90 (list of dictionaries, which are accepted).**  `nimble.data([{…}, {…}, …])` succeeds exactly when all the
dictionaries have the same keys, feature names given as a list are these keys in some order, point names given as a
list are distinct and as many as the dictionaries, and nothing is asked to be extracted that is not there
(`pointNames=True`, or `featureNames=True` without keys). -/
theorem C90_list_of_dicts_accepted (C : CellOps V) {pn fn : NamesArg} {first : PyDict String V}
    {rest : List (PyDict String V)} (hn : ∀ d ∈ first :: rest, (PyDict.keys d).Nodup) :
    (∃ o, dataFromDicts C pn fn first rest = .ok o) ↔
      pn ≠ .yes ∧ (∀ d ∈ first :: rest, ∀ k, k ∈ PyDict.keys d ↔ k ∈ PyDict.keys first) ∧
      (∀ l, fn = .given l → l.Perm ((PyDict.keys first).map some)) ∧
      (∀ l, pn = .given l → l.length = (first :: rest).length ∧ l.reduceOption.Nodup) ∧
      ¬ (PyDict.keys first = [] ∧ fn = .yes) := by
  constructor
  · rintro ⟨o, h⟩
    obtain ⟨_, _, _, h1, h2, _, h4, h5, order, hp, h6, _⟩ := C90_list_of_dicts hn h
    refine ⟨h1, h2, fun l hl => ?_, fun l hl => ?_, h5⟩
    · rw [h6 l hl]; exact hp.map some
    · rw [hl] at h4; exact h4
  · rintro ⟨h1, h2, h3, h4, h5⟩
    have hn1 := hn first (by simp)
    obtain ⟨fn', e1⟩ : ∃ fn', emptyDictArg (PyDict.keys first) fn = .ok fn' := by
      unfold emptyDictArg
      by_cases c1 : PyDict.keys first = []
      · rw [if_pos c1, if_neg (fun c => h5 ⟨c1, c⟩)]
        by_cases c3 : fn = .auto
        · rw [if_pos c3]; exact ⟨_, rfl⟩
        · rw [if_neg c3]; exact ⟨_, rfl⟩
      · rw [if_neg c1]; exact ⟨_, rfl⟩
    obtain ⟨hfn, _⟩ := emptyDictArg_ok e1
    have hacc : Accepts fn' (PyDict.keys first) := by
      cases hf : fn' with
      | given l =>
        rcases hfn with e | ⟨_, _, e⟩
        · exact h3 l (by rw [← e, hf])
        · rw [hf] at e; cases e
      | _ => trivial
    obtain ⟨n, e2⟩ := dictNames_ok (data := PyDict.values first) hacc
    obtain ⟨ordo, hperm, hall, hcase⟩ := dictNames_inv hn1 (by simp [PyDict.keys, PyDict.values]) e2
    obtain ⟨order, rfl, hperm'⟩ := strings_of_reorders hperm
    have hord : n.1.getD ((PyDict.keys first).map some) = order.map some := by
      rcases hcase with ⟨_, e, e'⟩ | ⟨_, e, _⟩ | ⟨_, e⟩
      · rw [e, e']; rfl
      · rw [e]; rfl
      · rw [e]; rfl
    have hlook : ∀ d ∈ rest, ∃ r, dictRow first (order.map some) d = .ok r ∧ r.length = order.length := by
      intro d hd
      have hs : sameKeySet d first = true := sameKeys_iff.2 (h2 d (by simp [hd]))
      unfold dictRow
      rw [if_pos hs]
      have : ∀ ks : List String, (∀ k ∈ ks, k ∈ PyDict.keys first) →
          ∃ r, mapRes (lookup d) (ks.map some) = .ok r ∧ r.length = ks.length := by
        intro ks
        induction ks with
        | nil => intro _; exact ⟨[], rfl, rfl⟩
        | cons k ks ih =>
          intro hk
          obtain ⟨r, hr, hl⟩ := ih (fun x hx => hk x (by simp [hx]))
          have hm : k ∈ PyDict.keys d := (h2 d (by simp [hd]) k).2 (hk k (by simp))
          obtain ⟨v, hv⟩ := Option.isSome_iff_exists.1 (PyDict.mem_keys.1 hm)
          refine ⟨v :: r, ?_, by simp [hl]⟩
          rw [List.map_cons]
          simp only [mapRes, bind, Except.bind, pure, Except.pure, lookup, hv]
          rw [hr]
      exact this order (fun k hk => hperm'.subset hk)
    have hrows : ∀ ds : List (PyDict String V), (∀ d ∈ ds, d ∈ rest) →
        ∃ rows, mapRes (dictRow first (order.map some)) ds = .ok rows ∧ rows.length = ds.length ∧
          ∀ r ∈ rows, r.length = order.length := by
      intro ds
      induction ds with
      | nil => intro _; exact ⟨[], rfl, rfl, by simp⟩
      | cons d ds ih =>
        intro hd
        obtain ⟨rows, g1, g2, g3⟩ := ih (fun x hx => hd x (by simp [hx]))
        obtain ⟨r, g4, g5⟩ := hlook d (hd d (by simp))
        refine ⟨r :: rows, ?_, by simp [g2], ?_⟩
        · simp only [mapRes, bind, Except.bind, pure, Except.pure, g4, g1]
        · intro x hx
          rcases List.mem_cons.1 hx with rfl | hx
          · exact g5
          · exact g3 x hx
    obtain ⟨rows, g1, g2, g3⟩ := hrows rest (fun _ h => h)
    have hl2 : n.2.length = order.length := by simpa using hall.length_eq.symm
    have hw : ∀ r ∈ replaceMissing C (n.2 :: rows), r.length = order.length := by
      intro r hr
      rw [replaceMissing_eq] at hr
      obtain ⟨r0, h0, rfl⟩ := List.mem_map.1 hr
      rw [List.length_map]
      rcases List.mem_cons.1 h0 with rfl | h0
      · exact hl2
      · exact g3 r0 h0
    have hgp : goodNames (replaceMissing C (n.2 :: rows)).length (plainNames pn) := by
      rw [replaceMissing_eq, List.length_map, List.length_cons, g2]
      cases pn with
      | given l => exact h4 l rfl
      | _ => trivial
    have hgf : goodNames order.length n.1 := by
      rcases hcase with ⟨_, e, _⟩ | ⟨_, e, _⟩ | ⟨_, e⟩
      · rw [e]; trivial
      · rw [e]; exact shown_good (fn := fn) hperm' hn1
      · rw [e]; exact shown_good (fn := fn) hperm' hn1
    obtain ⟨o, ho⟩ := finish_good (C := C) (by simp [replaceMissing]) hw hgp hgf
    refine ⟨o, ?_⟩
    unfold dataFromDicts
    rw [if_neg h1]
    simp only [bind, Except.bind, e1, e2, hord, g1]
    exact ho

/-- The hypotheses are met: dictionaries with their keys in different orders, and the user's own order. -/
example (junk : Cell) : ∃ o, dataFromDicts (cellOps junk) .auto (.given [some "b", some "a"])
    [("a", .num 1), ("b", .num 2)] [[("b", .num 4), ("a", .num 3)]] = .ok o ∧
    o.data = [[.num 2, .num 1], [.num 4, .num 3]] ∧ o.fts.getNames = [some "b", some "a"] := ⟨_, rfl, rfl, rfl⟩

/-! ## Dictionaries of elements, lists and dictionaries -/

/-- The point names of an object made from a dictionary with these keys in this order. -/
theorem dict_order {A : Type} {arg : NamesArg} {d : PyDict String A} (hn : (PyDict.keys d).Nodup)
    {r : Option (List (Option String)) × List A} (h : dictNamesS arg (PyDict.keys d) (PyDict.values d) = .ok r) :
    ∃ order : List String, order.Perm (PyDict.keys d) ∧
      List.Forall₂ (fun k v => PyDict.get? d k = some v) order r.2 ∧
      (∀ l, arg = .given l → l = order.map some) ∧ ((∀ l, arg ≠ .given l) → order = PyDict.keys d) ∧
      ((arg = .no ∧ r.1 = none) ∨ (arg ≠ .no ∧ r.1 = some (order.map some))) := by
  obtain ⟨ordo, hperm, hall, hcase⟩ := dictNames_inv hn (by simp [PyDict.keys, PyDict.values]) h
  obtain ⟨order, rfl, hperm'⟩ := strings_of_reorders hperm
  have inj : ∀ {a b : List String}, a.map some = b.map some → a = b := by
    intro a b e
    exact List.map_injective_iff.2 (fun _ _ h => Option.some.inj h) e
  refine ⟨order, hperm', ?_, ?_, ?_, ?_⟩
  · rw [List.forall₂_map_left_iff] at hall
    refine hall.imp ?_
    rintro k v ⟨k', i, hk, e1, e2⟩
    cases hk
    exact get_at hn e1 e2
  · intro l hl
    rcases hcase with ⟨e, _⟩ | ⟨e, _⟩ | ⟨e, _⟩
    · rw [hl] at e; cases e
    · rw [hl] at e; rcases e with e | e <;> cases e
    · rw [hl] at e; cases e; rfl
  · intro hl
    rcases hcase with ⟨_, _, e⟩ | ⟨_, _, e⟩ | ⟨e, _⟩
    · exact inj e
    · exact inj e
    · exact absurd e (hl _)
  · rcases hcase with ⟨e, e', _⟩ | ⟨e, e', _⟩ | ⟨e, e'⟩
    · exact Or.inl ⟨e, e'⟩
    · refine Or.inr ⟨?_, e'⟩
      rcases e with rfl | rfl <;> simp
    · exact Or.inr ⟨by rw [e]; simp, e'⟩

theorem forall₂_at {A B : Type} {R : A → B → Prop} {l : List A} {m : List B} (h : List.Forall₂ R l m) {i : Nat} {a : A}
    (hi : l[i]? = some a) : ∃ b, m[i]? = some b ∧ R a b := by
  have hi' := (List.getElem?_eq_some_iff.1 hi).1
  have := (List.forall₂_iff_get.1 h).2 i hi' (by rw [← h.length_eq]; exact hi')
  simp only [List.get_eq_getElem] at this
  rw [(List.getElem?_eq_some_iff.1 hi).2] at this
  exact ⟨_, List.getElem?_eq_getElem (by rw [← h.length_eq]; exact hi'), this⟩

/-- **C90 (dictionary of elements), partial.**  `nimble.data({k: v, …})` is one feature whose point named `k` holds
`v`.  Missing for the full claim: feature names given by the user are lost, see
`C90_dict_of_elements_featureNames_violated`. -/
theorem C90_dict_of_elements_partial {C : CellOps V} {pn fn : NamesArg} {d : PyDict String V} (hne : d ≠ [])
    (hn : (PyDict.keys d).Nodup) {o : Obj V} (h : dataFromDictOfElements C pn fn d = .ok o) :
    o.WF ∧ o.pts.len = d.length ∧ o.fts.len = 1 ∧ o.fts.getNames = [none] ∧
      ∃ order : List String, order.Perm (PyDict.keys d) ∧
        (∀ l, pn = .given l → l = order.map some) ∧ ((∀ l, pn ≠ .given l) → order = PyDict.keys d) ∧
        o.pts.getNames = shownNames pn order ∧
        ∀ (i : Nat) k, order[i]? = some k →
          ∃ v, PyDict.get? d k = some v ∧ o.elem? i 0 = some (C.stored v) := by
  unfold dataFromDictOfElements at h
  rw [if_neg (by simpa using hne)] at h
  simp only [bind, Except.bind] at h
  cases h2 : dictNamesS pn (PyDict.keys d) (PyDict.values d) with
  | error e => rw [h2] at h; cases h
  | ok n =>
  rw [h2] at h
  dsimp only at h
  obtain ⟨order, hp, hall, hg, hk, hc⟩ := dict_order hn h2
  have hlen : n.2.length = d.length := by
    rw [← hall.length_eq, hp.length_eq]; simp [PyDict.keys]
  have hne2 : n.2 ≠ [] := by
    intro e; rw [e] at hlen
    exact hne (List.length_eq_zero_iff.1 hlen.symm)
  obtain ⟨hh, _, _⟩ := finish_inv (n := 1) (by simpa [replaceMissing] using hne2) (by
      intro r hr
      rw [replaceMissing_eq] at hr
      simp only [List.map_map, List.mem_map, Function.comp_def] at hr
      obtain ⟨v, _, rfl⟩ := hr
      rfl) (by simp) h
  have hl : (replaceMissing C (n.2.map (fun v => [v]))).length = d.length := by
    rw [replaceMissing_eq]; simp [hlen]
  refine ⟨hh.wf, ?_, hh.fts, hh.fnames, order, hp, hg, hk, ?_, ?_⟩
  · rw [← hh.wf.rows, hh.data, hl]
  · rw [hh.pnames, hl]
    have hol : order.length = d.length := by rw [hp.length_eq]; simp [PyDict.keys]
    rcases hc with ⟨e, e'⟩ | ⟨e, e'⟩
    · rw [e, e', ← hol]; rfl
    · rw [e']
      cases pn with
      | no => exact absurd rfl e
      | _ => rfl
  · intro i k hi
    obtain ⟨v, hv, hg⟩ := forall₂_at hall hi
    refine ⟨v, hg, ?_⟩
    rw [elem_of_rows hh.data, replaceMissing_eq]
    simp [hv]

/-- **C90 violated: feature names of a dictionary of elements.**  A name given for the only feature is accepted and
dropped, and so is a list of names that does not fit the data. -/
theorem C90_dict_of_elements_featureNames_violated (junk : Cell) :
    ∃ o, dataFromDictOfElements (cellOps junk) .auto (.given [some "height"]) [("a", .num 1), ("b", .num 2)] = .ok o ∧
      o.fts.getNames = [none] ∧
    dataFromDictOfElements (cellOps junk) .auto (.given [some "x", some "y", some "z"])
      [("a", .num 1), ("b", .num 2)] = .ok o := ⟨_, rfl, rfl, rfl⟩

/-- A row that the name detection takes for feature names when it comes first and `r'` second: text only, above a row
with a number. -/
def TextAbove (C : CellOps V) (r r' : List V) : Prop :=
  (∀ v ∈ r, ∃ s, C.asStr v = some s) ∧ (r.tail.map C.asStr).Nodup ∧ ∃ v ∈ r', C.isNum v = true

theorem header_given (C : CellOps V) {pn : NamesArg} (hp : pn ≠ .auto ∧ pn ≠ .yes) (r r' : List V) :
    looksLikeHeader C pn r r' = true ↔ TextAbove C r r' := by
  have h1 : (pn == NamesArg.yes) = false := by simpa using hp.2
  have h3 : (pn == NamesArg.auto) = false := by simpa using hp.1
  unfold looksLikeHeader TextAbove allText noDup
  simp only [h1, h3, Bool.or_self, Bool.false_and]
  simp [Option.isSome_iff_exists, and_assoc]

theorem detect_nothing (C : CellOps V) {pn fn : NamesArg} (hp : pn ≠ .auto ∧ pn ≠ .yes) (hf : fn ≠ .yes)
    {rows : List (List V)} (hh : fn = .auto → ∀ r r' rest, rows = r :: r' :: rest → ¬ TextAbove C r r') :
    autoDetect C pn fn rows = (false, false) := by
  by_cases hfa : fn = .auto
  · subst hfa
    have h1 : (pn == NamesArg.yes) = false := by simpa using hp.2
    have h3 : (pn == NamesArg.auto) = false := by simpa using hp.1
    unfold autoDetect
    split
    · next f fs s ss rest =>
      have h := hh rfl _ _ _ rfl
      rw [← header_given C hp] at h
      simp [h, h1, h3]
    · simp [h1]
  · exact autoDetect_off C rows hp ⟨hfa, hf⟩

theorem nimbleData_plain {C : CellOps V} {pn fn : NamesArg} {rows : List (List V)}
    (h : autoDetect C pn fn rows = (false, false)) :
    nimbleData C pn fn rows = finishData C (replaceMissing C rows) (chosenNames pn none) (chosenNames fn none) := by
  unfold nimbleData
  simp only [h, Bool.or_self, Bool.and_false]
  simp only [takePointNames, takeFeatureNames]
  simp [bind, Except.bind, pure, Except.pure]

theorem asArg_plain (n : Option (List (Option String))) : asArg n ≠ .auto ∧ asArg n ≠ .yes := by
  cases n <;> simp [asArg]

/-- **C90 (dictionary of lists), partial.**  `nimble.data({k: [v, …], …})` has one point per key: the point named `k`
holds the list of key `k`.  Missing for the full claim: with `featureNames='automatic'`, a first list of text above a
list with a number, see `C90_dict_of_rows_text_violated`. -/
theorem C90_dict_of_rows_partial {C : CellOps V} {pn fn : NamesArg} {d : PyDict String (List V)}
    (hn : (PyDict.keys d).Nodup) (hne : ∃ r ∈ PyDict.values d, r ≠ [])
    (hh : fn = .auto → ∀ r ∈ PyDict.values d, ∀ r' ∈ PyDict.values d, ¬ TextAbove C r r')
    {o : Obj V} (h : dataFromDictOfRows C pn fn d = .ok o) :
    o.WF ∧ o.pts.len = d.length ∧ o.fts.getNames = askedNames fn o.fts.len ∧
      ∃ order : List String, order.Perm (PyDict.keys d) ∧
        (∀ l, pn = .given l → l = order.map some) ∧ ((∀ l, pn ≠ .given l) → order = PyDict.keys d) ∧
        o.pts.getNames = shownNames pn order ∧
        ∀ (i : Nat) k, order[i]? = some k →
          ∃ r, PyDict.get? d k = some r ∧ r.length = o.fts.len ∧ ∀ (j : Nat), o.elem? i j = (r[j]?).map C.stored := by
  unfold dataFromDictOfRows at h
  have hd : d ≠ [] := by
    rintro rfl
    obtain ⟨r, hr, _⟩ := hne
    simp [PyDict.values] at hr
  rw [if_neg (by simpa using hd)] at h
  simp only [bind, Except.bind] at h
  cases h2 : dictNamesS pn (PyDict.keys d) (PyDict.values d) with
  | error e => rw [h2] at h; cases h
  | ok n =>
  rw [h2] at h
  dsimp only at h
  by_cases hfy : fn = .yes
  · rw [if_pos hfy] at h; cases h
  rw [if_neg hfy] at h
  obtain ⟨order, hp, hall, hg, hk, hc⟩ := dict_order hn h2
  have hvals : ∀ r ∈ n.2, r ∈ PyDict.values d := by
    intro r hr
    obtain ⟨i, hi⟩ := List.mem_iff_getElem?.1 hr
    have hall' := hall.flip
    obtain ⟨k, _, hk⟩ := forall₂_at hall' hi
    have := PyDict.mem_of_get? hk
    exact List.mem_map.2 ⟨_, this, rfl⟩
  have hdet : autoDetect C (asArg n.1) fn n.2 = (false, false) := by
    apply detect_nothing C (asArg_plain _) hfy
    intro e r r' rest hr
    exact hh e r (hvals r (by rw [hr]; simp)) r' (hvals r' (by rw [hr]; simp))
  rw [nimbleData_plain hdet] at h
  have hlen : n.2.length = d.length := by
    rw [← hall.length_eq, hp.length_eq]; simp [PyDict.keys]
  have hlens := finish_lengths h
  obtain ⟨r0, hr0, hr0n⟩ := hne
  have hr0' : r0 ∈ n.2 := by
    obtain ⟨p, hpm, rfl⟩ := List.mem_map.1 hr0
    have hgp := PyDict.get?_of_mem hn (k := p.1) (v := p.2) hpm
    have : p.1 ∈ order := hp.symm.subset (List.mem_map.2 ⟨p, hpm, rfl⟩)
    obtain ⟨i, hi⟩ := List.mem_iff_getElem?.1 this
    obtain ⟨r, hr, hrk⟩ := forall₂_at hall hi
    rw [hgp] at hrk
    cases hrk
    exact List.mem_of_getElem? hr
  have hwid : ∀ r ∈ n.2, r.length = r0.length := by
    intro r hr
    have := hlens (r.map C.stored) (List.mem_map_of_mem hr) (r0.map C.stored) (List.mem_map_of_mem hr0')
    simpa using this
  have hw : ∀ r ∈ replaceMissing C n.2, r.length = r0.length := by
    intro r hr
    rw [replaceMissing_eq] at hr
    obtain ⟨r1, h1, rfl⟩ := List.mem_map.1 hr
    rw [List.length_map, hwid r1 h1]
  have hne2 : n.2 ≠ [] := by
    intro e; rw [e] at hr0'; cases hr0'
  obtain ⟨hho, _, _⟩ := finish_inv (by simpa [replaceMissing] using hne2) hw (by
    intro e
    exact absurd (List.length_eq_zero_iff.1 e) hr0n) h
  have hl : (replaceMissing C n.2).length = d.length := by
    rw [replaceMissing_eq]; simp [hlen]
  have hol : order.length = d.length := by rw [hp.length_eq]; simp [PyDict.keys]
  refine ⟨hho.wf, ?_, ?_, order, hp, hg, hk, ?_, ?_⟩
  · rw [← hho.wf.rows, hho.data, hl]
  · rw [hho.fnames, hho.fts]
    cases fn with
    | yes => exact absurd rfl hfy
    | _ => rfl
  · rw [hho.pnames, hl]
    rcases hc with ⟨e, e'⟩ | ⟨e, e'⟩
    · rw [e, e', ← hol]; rfl
    · rw [e']
      cases pn with
      | no => exact absurd rfl e
      | _ => rfl
  · intro i k hi
    obtain ⟨r, hr, hgr⟩ := forall₂_at hall hi
    refine ⟨r, hgr, ?_, ?_⟩
    · rw [hho.fts, hwid r (List.mem_of_getElem? hr)]
    · intro j
      rw [elem_of_rows hho.data, replaceMissing_eq]
      simp [hr]

/-- The dictionary of lists is accepted when the lists have one length and the names fit. -/
theorem C90_dict_of_rows_accepted {C : CellOps V} {pn fn : NamesArg} {d : PyDict String (List V)}
    (hn : (PyDict.keys d).Nodup) (hd : d ≠ []) {w : Nat} (hw : ∀ r ∈ PyDict.values d, r.length = w)
    (hh : fn = .auto → ∀ r ∈ PyDict.values d, ∀ r' ∈ PyDict.values d, ¬ TextAbove C r r') (hfy : fn ≠ .yes)
    (hpn : ∀ l, pn = .given l → l.Perm ((PyDict.keys d).map some))
    (hfn : ∀ l, fn = .given l → l.length = w ∧ l.reduceOption.Nodup) :
    ∃ o, dataFromDictOfRows C pn fn d = .ok o := by
  have hacc : Accepts pn (PyDict.keys d) := by
    cases hp : pn with
    | given l => exact hpn l hp
    | _ => trivial
  obtain ⟨n, h2⟩ := dictNames_ok (data := PyDict.values d) hacc
  obtain ⟨order, hp, hall, hg, hk, hc⟩ := dict_order hn h2
  have hvals : ∀ r ∈ n.2, r ∈ PyDict.values d := by
    intro r hr
    obtain ⟨i, hi⟩ := List.mem_iff_getElem?.1 hr
    obtain ⟨k, _, hk⟩ := forall₂_at hall.flip hi
    exact List.mem_map.2 ⟨_, PyDict.mem_of_get? hk, rfl⟩
  have hdet : autoDetect C (asArg n.1) fn n.2 = (false, false) := by
    apply detect_nothing C (asArg_plain _) hfy
    intro e r r' rest hr
    exact hh e r (hvals r (by rw [hr]; simp)) r' (hvals r' (by rw [hr]; simp))
  have hlen : n.2.length = order.length := hall.length_eq.symm
  have hne2 : n.2 ≠ [] := by
    intro e
    rw [e, hp.length_eq] at hlen
    simp [PyDict.keys] at hlen
    exact hd (List.length_eq_zero_iff.1 hlen.symm)
  obtain ⟨o, ho⟩ := finish_good (C := C) (rows := replaceMissing C n.2) (n := w)
    (pn := chosenNames (asArg n.1) none) (fn := chosenNames fn none)
    (by simpa [replaceMissing] using hne2) (by
      intro r hr
      rw [replaceMissing_eq] at hr
      obtain ⟨r1, h1, rfl⟩ := List.mem_map.1 hr
      rw [List.length_map, hw r1 (hvals r1 h1)]) (by
      have hlr : (replaceMissing C n.2).length = order.length := by rw [replaceMissing_eq]; simp [hlen]
      rw [hlr]
      rcases hc with ⟨_, e⟩ | ⟨_, e⟩
      · rw [e]; trivial
      · rw [e]; exact shown_good (fn := fn) hp hn) (by
      cases hf : fn with
      | given l => exact hfn l hf
      | _ => trivial)
  refine ⟨o, ?_⟩
  unfold dataFromDictOfRows
  rw [if_neg (by simpa using hd)]
  simp only [bind, Except.bind, h2]
  rw [if_neg hfy, nimbleData_plain hdet]
  exact ho

theorem init_wrong_length {n : Nat} {l : List (Option String)} (h : l.length ≠ n) :
    AxisSt.init n (some l) = .error .InvalidArgumentValue := by
  simp only [AxisSt.init]
  rw [if_pos h]

/-- **C90 violated: a first list of text.**  With the default arguments, every dictionary whose first list is text and
whose second list has a number is refused: the first list is taken for feature names although the keys of a
dictionary name its points, and then the keys are one too many. -/
theorem C90_dict_of_rows_text_violated (C : CellOps V) {k k' : String} {r r' : List V}
    {rest : PyDict String (List V)} {w : Nat} (hw : 0 < w)
    (hr : ∀ x ∈ PyDict.values ((k, r) :: (k', r') :: rest), x.length = w) (ht : TextAbove C r r') :
    dataFromDictOfRows C .auto .auto ((k, r) :: (k', r') :: rest) = .error .InvalidArgumentValue := by
  obtain ⟨v, t, rfl⟩ : ∃ v t, r = v :: t := by
    cases r with
    | nil => exact absurd (hr [] (by simp [PyDict.values])) (by simp; omega)
    | cons v t => exact ⟨v, t, rfl⟩
  obtain ⟨v', t', rfl⟩ : ∃ v t, r' = v :: t := by
    cases r' with
    | nil => exact absurd (hr [] (by simp [PyDict.values])) (by simp; omega)
    | cons v t => exact ⟨v, t, rfl⟩
  have hl := (header_given C (pn := .given ((k :: k' :: PyDict.keys rest).map some)) ⟨by simp, by simp⟩ (v :: t)
    (v' :: t')).2 ht
  simp only [List.map_cons] at hl
  have hvals : PyDict.values ((k, v :: t) :: (k', v' :: t') :: rest) = (v :: t) :: (v' :: t') :: PyDict.values rest := rfl
  have hkeys : PyDict.keys ((k, v :: t) :: (k', v' :: t') :: rest) = k :: k' :: PyDict.keys rest := rfl
  unfold dataFromDictOfRows
  rw [if_neg (by simp)]
  rw [hvals, hkeys]
  simp only [dictNamesS, bind, Except.bind, asArg]
  rw [if_neg (by simp)]
  unfold nimbleData
  have hd : autoDetect C (.given ((k :: k' :: PyDict.keys rest).map some)) .auto
      ((v :: t) :: (v' :: t') :: PyDict.values rest) = (false, true) := by
    unfold autoDetect
    simp [hl]
  simp only [hd, List.isEmpty_cons, Bool.false_and]
  simp only [takePointNames, takeFeatureNames]
  simp only [Bool.false_eq_true, if_false, if_true, bind, Except.bind, pure, Except.pure, List.tail_cons, chosenNames]
  have hs : sameLengths (replaceMissing C ((v' :: t') :: PyDict.values rest)) = true := by
    rw [sameLengths_iff]
    have : ∀ x ∈ replaceMissing C ((v' :: t') :: PyDict.values rest), x.length = w := by
      intro x hx
      rw [replaceMissing_eq] at hx
      obtain ⟨y, hy, rfl⟩ := List.mem_map.1 hx
      rw [List.length_map]
      exact hr y (by rw [hvals]; exact List.mem_cons_of_mem _ hy)
    intro x hx y hy
    rw [this x hx, this y hy]
  unfold finishData
  rw [if_pos hs]
  simp only [replaceMissing, List.map_cons, convertRows, Obj.make]
  rw [init_wrong_length (by simp [PyDict.keys, PyDict.values])]
  rfl

/-- … and without point names the first list disappears into the feature names. -/
theorem C90_dict_of_rows_lost_violated (junk : Cell) :
    ∃ o, dataFromDictOfRows (cellOps junk) .no .auto [("a", [.str "x", .str "y"]), ("b", [.num 1, .num 2])] = .ok o ∧
      o.data = [[.num 1, .num 2]] ∧ o.fts.getNames = [some "x", some "y"] := ⟨_, rfl, rfl, rfl⟩

/-- The hypotheses of `C90_dict_of_rows_accepted` are met. -/
example (junk : Cell) : ∃ o, dataFromDictOfRows (cellOps junk) (.given [some "b", some "a"]) .auto
    [("a", [.str "x", .num 1]), ("b", [.num 2, .num 3])] = .ok o ∧
    o.data = [[.num 2, .num 3], [.str "x", .num 1]] := ⟨_, rfl, rfl⟩

/-- **C90 (dictionary of dictionaries).**  The outer keys name the points, the inner keys the features. -/
theorem C90_dict_of_dicts {C : CellOps V} {pn fn : NamesArg} {d : PyDict String (PyDict String V)} (hd : d ≠ [])
    (hn : (PyDict.keys d).Nodup) (hn' : ∀ e ∈ PyDict.values d, (PyDict.keys e).Nodup) {o : Obj V}
    (h : dataFromDictOfDicts C pn fn d = .ok o) :
    o.WF ∧ o.pts.len = d.length ∧
      ∃ pOrder fOrder : List String, pOrder.Perm (PyDict.keys d) ∧
        (∀ l, pn = .given l → l = pOrder.map some) ∧ ((∀ l, pn ≠ .given l) → pOrder = PyDict.keys d) ∧
        (∀ l, fn = .given l → l = fOrder.map some) ∧ (∀ e ∈ PyDict.values d, fOrder.Perm (PyDict.keys e)) ∧
        o.pts.getNames = shownNames pn pOrder ∧ o.fts.getNames = shownNames fn fOrder ∧
        ∀ (i j : Nat) k k', pOrder[i]? = some k → fOrder[j]? = some k' →
          ∃ e v, PyDict.get? d k = some e ∧ PyDict.get? e k' = some v ∧ o.elem? i j = some (C.stored v) := by
  unfold dataFromDictOfDicts at h
  rw [if_neg (by simpa using hd)] at h
  simp only [bind, Except.bind] at h
  cases h2 : dictNamesS pn (PyDict.keys d) (PyDict.values d) with
  | error e => rw [h2] at h; cases h
  | ok n =>
  rw [h2] at h
  dsimp only at h
  obtain ⟨order, hp, hall, hg, hk, hc⟩ := dict_order hn h2
  have hvals : ∀ r ∈ n.2, r ∈ PyDict.values d := by
    intro r hr
    obtain ⟨i, hi⟩ := List.mem_iff_getElem?.1 hr
    obtain ⟨k, _, hk⟩ := forall₂_at hall.flip hi
    exact List.mem_map.2 ⟨_, PyDict.mem_of_get? hk, rfl⟩
  have hvals' : ∀ e ∈ PyDict.values d, e ∈ n.2 := by
    intro e he
    obtain ⟨p, hpm, rfl⟩ := List.mem_map.1 he
    have hgp := PyDict.get?_of_mem hn (k := p.1) (v := p.2) hpm
    have : p.1 ∈ order := hp.symm.subset (List.mem_map.2 ⟨p, hpm, rfl⟩)
    obtain ⟨i, hi⟩ := List.mem_iff_getElem?.1 this
    obtain ⟨r, hr, hrk⟩ := forall₂_at hall hi
    rw [hgp] at hrk
    cases hrk
    exact List.mem_of_getElem? hr
  have hlen : n.2.length = order.length := hall.length_eq.symm
  have hol : order.length = d.length := by rw [hp.length_eq]; simp [PyDict.keys]
  cases hn2 : n.2 with
  | nil => rw [hn2] at h; cases h
  | cons first rest =>
  rw [hn2] at h
  simp only [dataFromDictList] at h
  have hnod : ∀ e ∈ first :: rest, (PyDict.keys e).Nodup := by
    intro e he
    exact hn' e (hvals e (by rw [hn2]; exact he))
  obtain ⟨g1, g2, g3, g4, g5, g6, g7, g8, fo, f1, f2, f3, f4, f5⟩ := C90_list_of_dicts hnod h
  rw [hn2] at hlen
  refine ⟨g1, by rw [g2, hlen, hol], order, fo, hp, hg, hk, f2, ?_, ?_, f4, ?_⟩
  · intro e he
    have hm := hvals' e he
    rw [hn2] at hm
    refine f1.trans ?_
    rw [List.perm_ext_iff_of_nodup (hnod first (by simp)) (hnod e hm)]
    intro k
    exact (g5 e hm k).symm
  · rw [g6, hlen]
    rcases hc with ⟨e, e'⟩ | ⟨e, e'⟩
    · rw [e, e']; rfl
    · rw [e']
      cases pn with
      | no => exact absurd rfl e
      | _ => rfl
  · intro i j k k' hi hj
    obtain ⟨e, he, hge⟩ := forall₂_at hall hi
    rw [hn2] at he
    obtain ⟨v, hv, hel⟩ := f5 i j e k' he hj
    exact ⟨e, v, hge, hv, hel⟩

/-- A dictionary of dictionaries. -/
example (junk : Cell) : ∃ o, dataFromDictOfDicts (cellOps junk) .auto .auto
    [("p", [("a", .num 1), ("b", .num 2)]), ("q", [("b", .num 4), ("a", .num 3)])] = .ok o ∧
    o.data = [[.num 1, .num 2], [.num 3, .num 4]] ∧ o.pts.getNames = [some "p", some "q"] ∧
    o.fts.getNames = [some "a", some "b"] := ⟨_, rfl, rfl, rfl, rfl⟩

/-! ## A list of elements -/

/-- **C90 (list of elements), partial.**  `nimble.data([v, …])` is a single point holding the elements in order; with
`pointNames=True` its first element is its name.  Missing for the full claim: `featureNames=True`, see
`C90_list_of_elements_featureNames_violated`. -/
theorem C90_list_of_elements_partial {C : CellOps V} {pn fn : NamesArg} {l : List V} {o : Obj V}
    (hl : 2 ≤ l.length) (h : dataFromElements C pn fn l = .ok o) :
    o.WF ∧ o.pts.len = 1 ∧ o.fts.getNames = askedNames fn o.fts.len ∧
      ((pn = .yes ∧ o.fts.len + 1 = l.length ∧ (∃ v, l[0]? = some v ∧ o.pts.getNames = [some (C.toStr v)]) ∧
          ∀ (j : Nat), o.elem? 0 j = (l[j + 1]?).map C.stored) ∨
       (pn ≠ .yes ∧ o.fts.len = l.length ∧ o.pts.getNames = askedNames pn 1 ∧
          ∀ (j : Nat), o.elem? 0 j = (l[j]?).map C.stored)) := by
  obtain ⟨a, b, t, rfl⟩ : ∃ a b t, l = a :: b :: t := by
    match l, hl with
    | a :: b :: t, _ => exact ⟨a, b, t, rfl⟩
  unfold dataFromElements at h
  by_cases hf : fn = .yes
  · rw [if_pos hf] at h; cases h
  rw [if_neg hf] at h
  by_cases hp : pn = .yes
  · rw [if_pos hp] at h
    simp only [popHead, bind, Except.bind, dataFromElements.finishElements, replaceMissing, List.map_cons, List.map_nil,
      List.flatten_cons, List.cons_append, List.isEmpty_cons, Bool.false_eq_true, if_false, convertRows] at h
    obtain ⟨g1, g2, g3, g4, g5, g6, g7, g8, _⟩ := make_inv h rfl (by simp)
    refine ⟨g1, g3, ?_, Or.inl ⟨hp, by rw [g4]; simp, ⟨a, rfl, g7⟩, ?_⟩⟩
    · rw [g8, g4]
      cases fn with
      | yes => exact absurd rfl hf
      | _ => rfl
    · intro j
      rw [elem_of_rows g2]
      cases j with
      | zero => rfl
      | succ j => simp; rfl
  · rw [if_neg hp] at h
    simp only [dataFromElements.finishElements, replaceMissing, List.map_cons, List.map_nil,
      List.flatten_cons, List.cons_append, List.isEmpty_cons, Bool.false_eq_true, if_false, convertRows] at h
    obtain ⟨g1, g2, g3, g4, g5, g6, g7, g8, _⟩ := make_inv h rfl (by simp)
    refine ⟨g1, g3, ?_, Or.inr ⟨hp, by rw [g4]; simp, ?_, ?_⟩⟩
    · rw [g8, g4]
      cases fn with
      | yes => exact absurd rfl hf
      | _ => rfl
    · rw [g7]
      cases pn with
      | yes => exact absurd rfl hp
      | _ => rfl
    · intro j
      rw [elem_of_rows g2]
      match j with
      | 0 => rfl
      | 1 => rfl
      | j + 2 => simp; rfl

/-- **C90 violated: a list of elements as feature names.**  `featureNames=True` always ends in an `IndexError`, although
the same names inside one more pair of brackets make an object with these features and no point. -/
theorem C90_list_of_elements_featureNames_violated (C : CellOps V) (pn : NamesArg) (l : List V) :
    dataFromElements C pn .yes l = .error .IndexError ∧
    ∀ (junk : Cell), ∃ o, nimbleData (cellOps junk) .auto .yes [[.str "a", .str "b"]] = .ok o ∧
      o.fts.getNames = [some "a", some "b"] ∧ o.pts.len = 0 := by
  refine ⟨?_, fun junk => ⟨_, rfl, rfl, rfl⟩⟩
  unfold dataFromElements
  rw [if_pos rfl]

/-! ## Lists of nimble vectors -/

/-- Element `j` of a vector lying along the points (`ax = .point`: a single point) or features. -/
def vectorElem (o : Obj V) : Ax → Nat → Option V
  | .point, j => o.elem? 0 j
  | .feature, j => o.elem? j 0

theorem flatten_vector {o : Obj V} (h : o.WF) {ax : Ax} (h1 : (o.axis ax).len = 1) :
    o.data.flatten.length = (o.axis ax.off).len ∧ ∀ (j : Nat), o.data.flatten[j]? = vectorElem o ax j := by
  cases ax with
  | point =>
    have hl : o.data.length = 1 := by rw [h.rows]; exact h1
    obtain ⟨r, hr⟩ := List.length_eq_one_iff.1 hl
    have hw := h.cols r (by rw [hr]; simp)
    refine ⟨?_, fun j => ?_⟩
    · rw [hr, List.flatten_singleton]; exact hw
    · rw [vectorElem, Obj.elem?, hr]; simp
  | feature =>
    have hw : ∀ r ∈ o.data, r.length = 1 := fun r hr => by rw [h.cols r hr]; exact h1
    have key : ∀ d : List (List V), (∀ r ∈ d, r.length = 1) → d.flatten.length = d.length ∧
        ∀ (j : Nat), d.flatten[j]? = (d[j]?).bind (·[0]?) := by
      intro d
      induction d with
      | nil => intro _; exact ⟨rfl, fun j => by simp⟩
      | cons r rs ih =>
        intro hd
        obtain ⟨v, hv⟩ := List.length_eq_one_iff.1 (hd r (by simp))
        obtain ⟨i1, i2⟩ := ih (fun x hx => hd x (by simp [hx]))
        subst hv
        refine ⟨by simpa using i1, fun j => ?_⟩
        cases j with
        | zero => simp
        | succ j => simpa using i2 j
    obtain ⟨k1, k2⟩ := key o.data hw
    exact ⟨by rw [k1]; exact h.rows, fun j => by rw [k2, vectorElem]; rfl⟩

theorem turned_spec {o : Obj V} (h : o.WF) (ax : Ax) :
    ∃ b, turned (ax == .feature) o = .ok b ∧ b.pts.getNames = (o.axis ax).getNames ∧
      b.fts.getNames = (o.axis ax.off).getNames ∧ b.pts.len = (o.axis ax).len ∧ b.fts.len = (o.axis ax.off).len := by
  cases ax with
  | point => exact ⟨o, rfl, rfl, rfl, rfl, rfl⟩
  | feature =>
    obtain ⟨r, h1, _, _, h4, h5, h6, h7⟩ := transpose_spec h
    exact ⟨r, h1, h6, h7, h4, h5⟩

theorem getNames_noGen (a : AxisSt) : a.getNames = a.getNamesNoGen.getD (List.replicate a.len none) := by
  unfold AxisSt.getNames AxisSt.getNamesNoGen
  cases a.tbl <;> rfl

theorem vectorName_eq {o : Obj V} (h : o.pts.len = 1) {n : Option String} (hn : vectorName o = .ok n) :
    o.pts.getNames[0]? = some n := by
  unfold vectorName AxisSt.namesCreated at hn
  cases ht : o.pts.tbl with
  | none =>
    rw [ht] at hn
    cases hn
    unfold AxisSt.getNames
    rw [ht, h]; rfl
  | some t =>
    rw [ht] at hn
    simp only [Option.isSome_some, if_true, AxisSt.getName] at hn
    cases hg : o.pts.getNames[0]? with
    | none => rw [hg] at hn; cases hn
    | some m => rw [hg] at hn; cases hn; rfl

/-- The vectors all lie in the direction of the first one. -/
structure Aligned (ax : Ax) (first : Obj V) (rest : List (Obj V)) : Prop where
  wf : ∀ b ∈ first :: rest, b.WF
  vec : ∀ b ∈ first :: rest, (b.axis ax).len = 1
  long : ax = .feature → 1 < first.pts.len
  some : 0 < (first.axis ax.off).len

theorem aligned_turn {ax : Ax} {first : Obj V} {rest : List (Obj V)} (h : Aligned ax first rest) :
    isFeatureVector first = (ax == .feature) := by
  unfold isFeatureVector
  have hv := h.vec first (by simp)
  cases ax with
  | point =>
    have : first.pts.len = 1 := hv
    simp [this]
  | feature =>
    have h1 : first.fts.len = 1 := hv
    have := h.long rfl
    simp [h1, this]

theorem checkVectorNames_ok {a b : Option (List (Option String))} (h : checkVectorNames a b = .ok ()) :
    a = b ∨ a = none ∨ b = none := by
  unfold checkVectorNames at h
  by_cases h1 : a = b
  · exact Or.inl h1
  · rw [if_neg h1] at h
    cases a with
    | none => exact Or.inr (Or.inl rfl)
    | some x =>
      cases b with
      | none => exact Or.inr (Or.inr rfl)
      | some y => cases h

/-- The names shown for the points of a list of vectors: the name of each vector, or what is asked for. -/
def vectorNames (pn : NamesArg) (ax : Ax) (l : List (Obj V)) : List (Option String) :=
  match pn with
  | .given g => g
  | .no => List.replicate l.length none
  | _ => l.map (fun b => ((b.axis ax).getNames[0]?).join)

/-- The names shown for the features: those of the first vector, or what is asked for. -/
def vectorOffNames (fn : NamesArg) (ax : Ax) (first : Obj V) : List (Option String) :=
  match fn with
  | .given g => g
  | .no => List.replicate (first.axis ax.off).len none
  | _ => (first.axis ax.off).getNames

/-- **C90 (list of vectors), partial.**  `nimble.data([vector, …])` of nimble objects that are all points or all
features: point `i` holds the elements of object `i` in order under the name of that object, the features have the
names of the first object's elements, and two objects with different names for their elements are refused.  Missing
for the full claim: an object without names next to one with names
(`C90_vectors_unnamed_violated`), vectors of both directions (`C90_vectors_mixed_violated`). -/
theorem C90_vectors_partial {C : CellOps V} {pn fn : NamesArg} {ax : Ax} {first : Obj V} {rest : List (Obj V)}
    (ha : Aligned ax first rest) {o : Obj V} (h : dataFromVectors C pn fn first rest = .ok o) :
    o.WF ∧ o.pts.len = (first :: rest).length ∧ o.fts.len = (first.axis ax.off).len ∧
      o.pts.getNames = vectorNames pn ax (first :: rest) ∧ o.fts.getNames = vectorOffNames fn ax first ∧
      (∀ (i : Nat) b, (first :: rest)[i]? = some b → (b.axis ax.off).len = o.fts.len ∧
        ∀ (j : Nat), o.elem? i j = (vectorElem b ax j).map C.stored) ∧
      (fn = .auto ∨ fn = .yes → ∀ b ∈ first :: rest, (b.axis ax.off).getNames = (first.axis ax.off).getNames ∨
        (∀ n ∈ (b.axis ax.off).getNames, n = none) ∨ (∀ n ∈ (first.axis ax.off).getNames, n = none)) := by
  unfold dataFromVectors at h
  rw [aligned_turn ha] at h
  obtain ⟨f, hf, f1, f2, f3, f4⟩ := turned_spec (ha.wf first (by simp)) ax
  rw [hf] at h
  simp only [bind, Except.bind] at h
  by_cases hy : fn = .yes ∧ f.fts.getNamesNoGen = none
  · rw [if_pos hy] at h; cases h
  rw [if_neg hy] at h
  cases h1 : mapRes (vectorRound (ax == .feature) (pn == .yes || pn == .auto) (wantsNames fn f.fts.getNamesNoGen)
      f.fts.getNamesNoGen) (first :: rest) with
  | error e => rw [h1] at h; cases h
  | ok l =>
  rw [h1] at h
  dsimp only at h
  cases h2 : vectorPointNames pn l with
  | error e => rw [h2] at h; cases h
  | ok p =>
  rw [h2] at h
  dsimp only at h
  rw [mapRes_forall₂] at h1
  -- what one round does
  have hround : ∀ b ∈ first :: rest, ∀ r, vectorRound (ax == .feature) (pn == .yes || pn == .auto)
      (wantsNames fn f.fts.getNamesNoGen) f.fts.getNamesNoGen b = .ok r →
      (pn = .auto ∨ pn = .yes → r.1 = ((b.axis ax).getNames[0]?).join) ∧
      (r.2 = false → ((b.axis ax).getNames[0]?).join = none) ∧
      (wantsNames fn f.fts.getNamesNoGen = true → (b.axis ax.off).getNames = (first.axis ax.off).getNames ∨
        (∀ n ∈ (b.axis ax.off).getNames, n = none) ∨ (∀ n ∈ (first.axis ax.off).getNames, n = none)) := by
    intro b hb r hr
    obtain ⟨c, hc, c1, c2, c3, c4⟩ := turned_spec (ha.wf b hb) ax
    have clen : c.pts.len = 1 := by rw [c3]; exact ha.vec b hb
    unfold vectorRound at hr
    rw [hc] at hr
    simp only [bind, Except.bind, pure, Except.pure] at hr
    cases e1 : vectorNameIf (pn == .yes || pn == .auto) c with
    | error e => rw [e1] at hr; cases hr
    | ok n =>
    rw [e1] at hr
    dsimp only at hr
    cases e2 : checkVectorIf (wantsNames fn f.fts.getNamesNoGen) f.fts.getNamesNoGen c.fts.getNamesNoGen with
    | error e => rw [e2] at hr; cases hr
    | ok u =>
    rw [e2] at hr
    dsimp only at hr
    cases hr
    refine ⟨?_, ?_, ?_⟩
    · intro hpn
      have : (pn == NamesArg.yes || pn == NamesArg.auto) = true := by
        rcases hpn with rfl | rfl <;> rfl
      unfold vectorNameIf at e1
      rw [if_pos this] at e1
      rw [← c1, vectorName_eq clen e1]
      rfl
    · intro hcr
      dsimp only at hcr
      unfold AxisSt.namesCreated at hcr
      rw [← c1]
      unfold AxisSt.getNames
      cases ht : c.pts.tbl with
      | none => rw [clen]; rfl
      | some t => rw [ht] at hcr; cases hcr
    · intro hw
      unfold checkVectorIf at e2
      rw [if_pos hw] at e2
      rcases checkVectorNames_ok e2 with e | e | e
      · left
        rw [← c2, ← f2, getNames_noGen c.fts, getNames_noGen f.fts, ← e]
        cases hg : f.fts.getNamesNoGen with
        | some x => rfl
        | none =>
          exfalso
          unfold wantsNames at hw
          rw [hg] at hw
          simp at hw
          exact hy ⟨hw, hg⟩
      · right; right
        rw [← f2, getNames_noGen f.fts, e]
        intro n hn
        exact (List.mem_replicate.1 hn).2
      · right; left
        rw [← c2, getNames_noGen c.fts, e]
        intro n hn
        exact (List.mem_replicate.1 hn).2
  -- the rows
  have hlens := finish_lengths h
  have hflat : ∀ b ∈ first :: rest, b.data.flatten.length = (first.axis ax.off).len := by
    intro b hb
    have := hlens (b.data.flatten.map C.stored) (by
      rw [replaceMissing_eq, List.map_map]; exact List.mem_map.2 ⟨b, hb, rfl⟩)
      (first.data.flatten.map C.stored) (by
      rw [replaceMissing_eq, List.map_map]; exact List.mem_map.2 ⟨first, by simp, rfl⟩)
    simp only [List.length_map] at this
    rw [this]
    exact (flatten_vector (ha.wf first (by simp)) (ha.vec first (by simp))).1
  have hw : ∀ r ∈ replaceMissing C ((first :: rest).map (fun o => o.data.flatten)),
      r.length = (first.axis ax.off).len := by
    intro r hr
    rw [replaceMissing_eq, List.map_map] at hr
    obtain ⟨b, hb, rfl⟩ := List.mem_map.1 hr
    simp only [Function.comp_apply, List.length_map]
    exact hflat b hb
  have hpos := ha.some
  obtain ⟨hh, _, _⟩ := finish_inv (by simp [replaceMissing]) hw (by intro e; omega) h
  have hl : (replaceMissing C ((first :: rest).map (fun o => o.data.flatten))).length = (first :: rest).length := by
    rw [replaceMissing_eq]; simp
  have hat : ∀ (i : Nat) b, (first :: rest)[i]? = some b → ∃ r, l[i]? = some r ∧
      (pn = .auto ∨ pn = .yes → r.1 = ((b.axis ax).getNames[0]?).join) ∧
      (r.2 = false → ((b.axis ax).getNames[0]?).join = none) := by
    intro i b hi
    obtain ⟨r, hr, hvr⟩ := forall₂_at h1 hi
    have := hround b (List.mem_of_getElem? hi) r hvr
    exact ⟨r, hr, this.1, this.2.1⟩
  have hll : l.length = (first :: rest).length := h1.length_eq.symm
  have hnames : (pn = .auto ∨ pn = .yes) → l.map Prod.fst =
      (first :: rest).map (fun b => ((b.axis ax).getNames[0]?).join) := by
    intro hpn
    apply List.ext_getElem?
    intro i
    rw [List.getElem?_map, List.getElem?_map]
    cases hi : (first :: rest)[i]? with
    | none =>
      have : l[i]? = none := by
        rw [List.getElem?_eq_none_iff] at hi ⊢
        omega
      rw [this]; rfl
    | some b =>
      obtain ⟨r, hr, h3, _⟩ := hat i b hi
      rw [hr]
      simp only [Option.map_some]
      rw [h3 hpn]
  refine ⟨hh.wf, ?_, hh.fts, ?_, ?_, ?_, ?_⟩
  · rw [← hh.wf.rows, hh.data, hl]
  · rw [hh.pnames, hl]
    cases hpn : pn with
    | given g => rw [hpn] at h2; cases h2; rfl
    | no => rw [hpn] at h2; cases h2; rfl
    | yes =>
      rw [hpn] at h2
      simp only [vectorPointNames] at h2
      by_cases hc : (l.all fun p => !p.2) = true
      · rw [if_pos hc] at h2; cases h2
      · rw [if_neg hc] at h2
        cases h2
        exact hnames (Or.inr hpn)
    | auto =>
      rw [hpn] at h2
      simp only [vectorPointNames] at h2
      by_cases hc : (l.all fun p => !p.2) = true
      · rw [if_pos hc] at h2
        cases h2
        simp only [Option.getD_none, vectorNames]
        symm
        apply List.eq_replicate_iff.2
        refine ⟨by simp, ?_⟩
        intro n hn
        obtain ⟨b, hb, rfl⟩ := List.mem_map.1 hn
        obtain ⟨i, hi⟩ := List.mem_iff_getElem?.1 hb
        obtain ⟨r, hr, _, h4⟩ := hat i b hi
        apply h4
        have := List.all_eq_true.1 hc r (List.mem_of_getElem? hr)
        simpa using this
      · rw [if_neg hc] at h2
        cases h2
        exact hnames (Or.inl hpn)
  · rw [hh.fnames]
    cases hfn : fn with
    | given g => rfl
    | no => rfl
    | yes =>
      simp only [vectorFeatureNames, vectorOffNames]
      rw [← f2, getNames_noGen f.fts, f4]
    | auto =>
      simp only [vectorFeatureNames, vectorOffNames]
      rw [← f2, getNames_noGen f.fts, f4]
  · intro i b hi
    have hb := List.mem_of_getElem? hi
    obtain ⟨v1, v2⟩ := flatten_vector (ha.wf b hb) (ha.vec b hb)
    refine ⟨by rw [hh.fts, ← v1, hflat b hb], fun j => ?_⟩
    rw [elem_of_rows hh.data, replaceMissing_eq, List.map_map, List.getElem?_map, hi]
    simp only [Option.map_some, Option.bind_some, Function.comp_apply, List.getElem?_map]
    rw [v2]
  · intro hfn b hb
    by_cases hw : wantsNames fn f.fts.getNamesNoGen = true
    · obtain ⟨i, hi⟩ := List.mem_iff_getElem?.1 hb
      obtain ⟨r, hr, hvr⟩ := forall₂_at h1 hi
      exact (hround b hb r hvr).2.2 hw
    · right; right
      rw [← f2, getNames_noGen f.fts]
      cases hg : f.fts.getNamesNoGen with
      | none =>
        intro n hn
        exact (List.mem_replicate.1 hn).2
      | some x =>
        exfalso
        apply hw
        unfold wantsNames
        rw [hg]
        rcases hfn with rfl | rfl <;> rfl

theorem vectorName_ok {o : Obj V} (h : o.pts.len = 1) (hk : o.pts.Ok) :
    vectorName o = .ok ((o.pts.getNames[0]?).join) := by
  unfold vectorName AxisSt.namesCreated
  cases ht : o.pts.tbl with
  | none =>
    unfold AxisSt.getNames
    rw [ht, h]; rfl
  | some t =>
    have hl : t.inv.length = o.pts.len := (hk t ht).length_inv
    rw [h] at hl
    obtain ⟨n, hn⟩ := List.length_eq_one_iff.1 hl
    simp only [Option.isSome_some, if_true, AxisSt.getName, AxisSt.getNames, ht, hn]
    rfl

theorem turned_ok {o : Obj V} (h : o.WF) (t : Bool) : ∃ b, turned t o = .ok b ∧ b.WF := by
  cases t with
  | false => exact ⟨o, rfl, h⟩
  | true =>
    obtain ⟨r, h1, h2, _⟩ := transpose_spec h
    exact ⟨r, h1, h2⟩

/-- **C90 (list of vectors, accepted).**  With the default arguments, vectors of one direction and one length with the
same names for their elements and distinct names of their own are accepted. -/
theorem C90_vectors_accepted (C : CellOps V) {ax : Ax} {first : Obj V} {rest : List (Obj V)}
    (ha : Aligned ax first rest) (hl : ∀ b ∈ rest, (b.axis ax.off).len = (first.axis ax.off).len)
    (hn : ∀ b ∈ rest, (b.axis ax.off).getNames = (first.axis ax.off).getNames)
    (hd : ((first :: rest).map (fun b => ((b.axis ax).getNames[0]?).join)).reduceOption.Nodup) :
    ∃ o, dataFromVectors C .auto .auto first rest = .ok o := by
  unfold dataFromVectors
  rw [aligned_turn ha]
  obtain ⟨f, hf, f1, f2, f3, f4⟩ := turned_spec (ha.wf first (by simp)) ax
  obtain ⟨f', hf', hfw⟩ := turned_ok (ha.wf first (by simp)) (ax == .feature)
  have e : f' = f := by rw [hf] at hf'; cases hf'; rfl
  subst e
  rw [hf]
  simp only [bind, Except.bind]
  rw [if_neg (by simp)]
  have hnames : ∀ b ∈ first :: rest, (b.axis ax.off).getNames = (first.axis ax.off).getNames := by
    intro b hb
    rcases List.mem_cons.1 hb with rfl | hb
    · rfl
    · exact hn b hb
  have hround : ∀ b ∈ first :: rest, ∃ c, vectorRound (ax == .feature) (NamesArg.auto == .yes || NamesArg.auto == .auto)
      (wantsNames .auto f'.fts.getNamesNoGen) f'.fts.getNamesNoGen b =
      .ok (((b.axis ax).getNames[0]?).join, c) := by
    intro b hb
    obtain ⟨c, hc, c1, c2, c3, c4⟩ := turned_spec (ha.wf b hb) ax
    obtain ⟨c', hc', hcw⟩ := turned_ok (ha.wf b hb) (ax == .feature)
    have e : c' = c := by rw [hc] at hc'; cases hc'; rfl
    subst e
    have clen : c'.pts.len = 1 := by rw [c3]; exact ha.vec b hb
    have h1 : vectorNameIf (NamesArg.auto == .yes || NamesArg.auto == .auto) c' =
        .ok (((b.axis ax).getNames[0]?).join) := by
      have := vectorName_ok clen hcw.pts
      rw [c1] at this
      exact this
    have h2 : checkVectorIf (wantsNames .auto f'.fts.getNamesNoGen) f'.fts.getNamesNoGen c'.fts.getNamesNoGen = .ok () := by
      unfold checkVectorIf checkVectorNames
      have hg : c'.fts.getNames = f'.fts.getNames := by rw [c2, f2, hnames b hb]
      rw [getNames_noGen, getNames_noGen] at hg
      cases g1 : f'.fts.getNamesNoGen with
      | none => simp
      | some x =>
        cases g2 : c'.fts.getNamesNoGen with
        | none => simp
        | some y =>
          rw [g1, g2] at hg
          simp only [Option.getD_some] at hg
          simp [hg]
    refine ⟨c'.pts.namesCreated, ?_⟩
    unfold vectorRound
    simp only [hc, h1, h2, bind, Except.bind, pure, Except.pure]
  have hall : ∀ bs : List (Obj V), (∀ b ∈ bs, b ∈ first :: rest) → ∃ l,
      mapRes (vectorRound (ax == .feature) (NamesArg.auto == .yes || NamesArg.auto == .auto)
        (wantsNames .auto f'.fts.getNamesNoGen) f'.fts.getNamesNoGen) bs = .ok l ∧
      l.map Prod.fst = bs.map (fun b => ((b.axis ax).getNames[0]?).join) := by
    intro bs
    induction bs with
    | nil => intro _; exact ⟨[], rfl, rfl⟩
    | cons b bs ih =>
      intro hb
      obtain ⟨l, l1, l2⟩ := ih (fun x hx => hb x (by simp [hx]))
      obtain ⟨c, hc⟩ := hround b (hb b (by simp))
      refine ⟨(((b.axis ax).getNames[0]?).join, c) :: l, ?_, ?_⟩
      · simp only [mapRes, hc, l1, bind, Except.bind, pure, Except.pure]
      · rw [List.map_cons, List.map_cons, l2]
  obtain ⟨l, l1, l2⟩ := hall (first :: rest) (fun _ h => h)
  rw [l1]
  simp only [vectorPointNames]
  have hw : ∀ r ∈ replaceMissing C ((first :: rest).map (fun o => o.data.flatten)),
      r.length = (first.axis ax.off).len := by
    intro r hr
    rw [replaceMissing_eq, List.map_map] at hr
    obtain ⟨b, hb, rfl⟩ := List.mem_map.1 hr
    simp only [Function.comp_apply, List.length_map]
    rw [(flatten_vector (ha.wf b hb) (ha.vec b hb)).1]
    rcases List.mem_cons.1 hb with rfl | hb
    · rfl
    · exact hl b hb
  apply finish_good (by simp [replaceMissing]) hw
  · rw [replaceMissing_eq, List.length_map, List.length_map]
    by_cases hc : (l.all fun p => !p.2) = true
    · rw [if_pos hc]; trivial
    · rw [if_neg hc]
      refine ⟨?_, ?_⟩
      · rw [l2, List.length_map]
      · rw [l2]; exact hd
  · simp only [vectorFeatureNames]
    unfold AxisSt.getNamesNoGen
    cases ht : f'.fts.tbl with
    | none => trivial
    | some t =>
      have hk := hfw.fts t ht
      refine ⟨?_, hk.reduceOption_nodup⟩
      rw [hk.length_inv, f4]

private def named (data : List (List Cell)) (p f : Nat) (pn fn : Option (List (Option String))) : Obj Cell :=
  match Obj.make data p f pn fn with
  | .ok o => o
  | .error _ => ⟨[], ⟨0, none⟩, ⟨0, none⟩⟩

/-- Two points with names: the hypotheses are met and the call succeeds. -/
example (junk : Cell) : ∃ o, dataFromVectors (cellOps junk) .auto .auto
    (named [[.num 1, .num 2]] 1 2 (some [some "p"]) (some [some "a", some "b"]))
    [named [[.num 3, .num 4]] 1 2 (some [some "q"]) (some [some "a", some "b"])] = .ok o ∧
    o.data = [[.num 1, .num 2], [.num 3, .num 4]] ∧ o.pts.getNames = [some "p", some "q"] ∧
    o.fts.getNames = [some "a", some "b"] := ⟨_, rfl, rfl, rfl, rfl⟩

/-- **C90 violated: missing names.**  "All objects must have identical feature names" is only enforced when every
object has names: with `featureNames=True`, an object without names takes those of the first. -/
theorem C90_vectors_unnamed_violated (junk : Cell) :
    ∃ o, dataFromVectors (cellOps junk) .auto .yes
      (named [[.num 1, .num 2]] 1 2 none (some [some "a", some "b"])) [named [[.num 3, .num 4]] 1 2 none none] = .ok o ∧
      o.fts.getNames = [some "a", some "b"] := ⟨_, rfl, rfl⟩

/-- **C90 violated: vectors of both directions.**  A feature after a point gives the new point the name of the
feature's first element. -/
theorem C90_vectors_mixed_violated (junk : Cell) :
    ∃ o, dataFromVectors (cellOps junk) .auto .auto
      (named [[.num 1, .num 2]] 1 2 (some [some "p"]) none)
      [named [[.num 3], [.num 4]] 2 1 (some [some "x", some "y"]) (some [some "q"])] = .ok o ∧
      o.data = [[.num 1, .num 2], [.num 3, .num 4]] ∧ o.pts.getNames = [some "p", some "x"] := ⟨_, rfl, rfl, rfl⟩

end Nimble.Sources
