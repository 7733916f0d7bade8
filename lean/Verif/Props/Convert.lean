import Verif.Model.Convert
import Verif.Props.Create
import Verif.Props.History

/-!
# C63: copies as Python lists and dictionaries
-/

namespace Nimble
open Obj
variable {V : Type}

/-! ## Lists -/

/-- `R` are the elements of `o`, feature by feature. -/
structure ByFeature (o : Obj V) (R : List (List V)) : Prop where
  length : R.length = o.fts.len
  inner : ∀ r ∈ R, r.length = o.pts.len
  elem : ∀ i j, i < o.pts.len → j < o.fts.len → (R[j]?.bind (·[i]?)) = o.elem? i j

theorem byFeature_transpose {o : Obj V} (h : o.WF) : ByFeature o (transposeData o.fts.len o.data) := by
  refine ⟨by simp [transposeData], ?_, fun i j hi hj => ?_⟩
  · intro r hr
    obtain ⟨q, -, h2, h3, h4, h5, -⟩ := transpose_spec h
    have := h2.cols r (h3 ▸ hr)
    rw [this]
    exact h5
  · exact elem_transpose (r := ⟨transposeData o.fts.len o.data, o.fts, o.pts⟩) h rfl i j hi hj

/-- C63. A copy as a Python list, point by point: the rows; feature by feature: transposed, when numpy keeps
the cells (missing: see `C63_python_list_violated`) and there is a point. -/
theorem C63_python_list_partial {o : Obj V} (h : o.WF) (np : List (List V) → List (List V)) :
    o.copyPythonList np true = o.data ∧
    (np o.data = o.data → 0 < o.pts.len → ByFeature o (o.copyPythonList np false)) := by
  refine ⟨rfl, fun hnp hp => ?_⟩
  unfold copyPythonList
  simp only [Bool.false_eq_true, if_false, hnp]
  have : (o.data.headD []).length = o.fts.len := by
    cases hd : o.data with
    | nil => have := h.rows; rw [hd] at this; simp at this; omega
    | cons r rest => exact h.cols r (by rw [hd]; simp)
  rw [this]
  exact byFeature_transpose h

/-- C63. A copy of one point or feature as a flat list: exactly the elements in order; refused for other
objects. -/
theorem C63_flat_list {o : Obj V} (h : o.WF) :
    (o.pts.len = 1 → ∃ l, o.copyList1D = .ok l ∧ l.length = o.fts.len ∧ ∀ j, j < o.fts.len → l[j]? = o.elem? 0 j) ∧
    (o.fts.len = 1 → ∃ l, o.copyList1D = .ok l ∧ l.length = o.pts.len ∧ ∀ i, i < o.pts.len → l[i]? = o.elem? i 0) ∧
    (o.pts.len ≠ 1 → o.fts.len ≠ 1 → o.copyList1D = .error .ImproperObjectAction) := by
  refine ⟨fun h1 => ?_, fun h1 => ?_, fun h1 h2 => ?_⟩
  · unfold copyList1D
    rw [if_neg (by omega)]
    by_cases h0 : o.fts.len = 0
    · rw [if_pos (Or.inr h0)]
      exact ⟨[], rfl, by rw [h0]; rfl, fun j hj => by omega⟩
    · rw [if_neg (by omega)]
      have hr := h.rows
      rw [h1] at hr
      obtain ⟨r, hd⟩ := List.length_eq_one_iff.1 hr
      refine ⟨o.data.flatten, rfl, ?_, fun j hj => ?_⟩
      · rw [hd, List.flatten_singleton]; exact h.cols r (by rw [hd]; simp)
      · unfold elem?
        rw [hd, List.flatten_singleton]; rfl
  · unfold copyList1D
    rw [if_neg (by omega)]
    by_cases h0 : o.pts.len = 0
    · rw [if_pos (Or.inl h0)]
      exact ⟨[], rfl, by rw [h0]; rfl, fun j hj => by omega⟩
    · rw [if_neg (by omega)]
      refine ⟨o.data.flatten, rfl, ?_⟩
      have hall : ∀ r ∈ o.data, r.length = 1 := fun r hr => by rw [h.cols r hr, h1]
      unfold elem?
      rw [← h.rows]
      generalize o.data = d at hall
      clear h h1 h0
      induction d with
      | nil => exact ⟨rfl, fun i hi => by simp at hi⟩
      | cons r d ih =>
        obtain ⟨h2, h3⟩ := ih (fun r hr => hall r (List.mem_cons_of_mem _ hr))
        obtain ⟨x, rfl⟩ := List.length_eq_one_iff.1 (hall r (by simp))
        rw [List.flatten_cons]
        refine ⟨by simp [h2], fun i hi => ?_⟩
        cases i with
        | zero => rfl
        | succ i =>
          simp only [List.length_cons] at hi
          simpa using h3 i (by omega)
  · unfold copyList1D
    rw [if_pos ⟨h1, h2⟩]

/-! ## Dictionaries -/

theorem foldl_set_zip {A : Type} {names : List (Option String)} {vals : List A} (hn : names.Nodup)
    (hl : names.length = vals.length) :
    (names.zip vals).foldl (fun d p => PyDict.set d p.1 p.2) ([] : NameDict A) = names.zip vals := by
  have : ((names.zip vals).map Prod.fst) = names := List.map_fst_zip (by omega)
  rw [PyDict.foldl_set_append (by rw [this]; exact hn) (by simp)]
  rfl

theorem keys_zip {A : Type} {names : List (Option String)} {vals : List A} (hl : names.length = vals.length) :
    PyDict.keys (names.zip vals : NameDict A) = names := by
  unfold PyDict.keys
  exact List.map_fst_zip (by omega)

theorem get?_zip {A : Type} {names : List (Option String)} {vals : List A} (hn : names.Nodup)
    (hl : names.length = vals.length) {j : Nat} {n : Option String} (hj : names[j]? = some n) :
    PyDict.get? (names.zip vals : NameDict A) n = vals[j]? := by
  have hlt : j < names.length := (List.getElem?_eq_some_iff.1 hj).1
  have hv : vals[j]? = some vals[j] := List.getElem?_eq_getElem (by omega)
  rw [hv]
  refine PyDict.get?_of_mem (by rw [keys_zip hl]; exact hn) ?_
  rw [List.mem_iff_getElem?]
  exact ⟨j, by rw [List.getElem?_zip_eq_some]; exact ⟨hj, hv⟩⟩

/-- `d` maps the `k`-th name to the `k`-th value, and nothing else. -/
structure Maps {A : Type} (d : NameDict A) (names : List (Option String)) (val : Nat → Option A) : Prop where
  keys : d.keys = names
  get : ∀ j n, names[j]? = some n → PyDict.get? d n = val j

theorem maps_zip {A : Type} {names : List (Option String)} {vals : List A} (hn : names.Nodup)
    (hl : names.length = vals.length) : Maps (names.zip vals : NameDict A) names (fun j => vals[j]?) :=
  ⟨keys_zip hl, fun _ _ hj => get?_zip hn hl hj⟩

theorem listOfDict_eq {names : List (Option String)} {rows : List (List V)} (hn : names.Nodup)
    (hl : ∀ r ∈ rows, r.length = names.length) :
    listOfDict names rows = rows.map (fun r => (names.zip r : NameDict V)) := by
  unfold listOfDict
  refine List.map_congr_left fun r hr => ?_
  exact foldl_set_zip hn (hl r hr).symm

theorem dictOfList_eq {names : List (Option String)} {cols : List (List V)} (hn : names.Nodup)
    (hl : cols.length = names.length) : dictOfList names cols = names.zip cols :=
  foldl_set_zip hn hl.symm

/-- C63. A copy as a list of dictionaries, when the features have different names (at most one without a
name): one dictionary per point, with the names of the features in order as keys and the element as value. -/
theorem C63_list_of_dict_partial {o : Obj V} (h : o.WF) (hn : o.fts.getNames.Nodup) :
    (o.copyListOfDict true).length = o.pts.len ∧
    ∀ i, i < o.pts.len → ∃ d, (o.copyListOfDict true)[i]? = some d ∧ Maps d o.fts.getNames (fun j => o.elem? i j) := by
  have hl := h.fts.length_getNames
  unfold copyListOfDict
  rw [if_pos rfl, listOfDict_eq hn (fun r hr => by rw [h.cols r hr, hl])]
  refine ⟨by rw [List.length_map, h.rows], fun i hi => ?_⟩
  have hlt : i < o.data.length := by rw [h.rows]; exact hi
  refine ⟨_, by rw [List.getElem?_map, List.getElem?_eq_getElem hlt]; rfl, ?_⟩
  have := maps_zip (vals := o.data[i]) hn (by rw [hl, h.cols _ (List.getElem_mem hlt)])
  unfold elem?
  rw [List.getElem?_eq_getElem hlt]
  exact this

/-- C63. Feature by feature, for points with different names. -/
theorem C63_list_of_dict_features_partial {o : Obj V} (h : o.WF) (hn : o.pts.getNames.Nodup) :
    (o.copyListOfDict false).length = o.fts.len ∧
    ∀ j, j < o.fts.len → ∃ d, (o.copyListOfDict false)[j]? = some d ∧
      d.keys = o.pts.getNames ∧
      ∀ i n, i < o.pts.len → o.pts.getNames[i]? = some n → PyDict.get? d n = o.elem? i j := by
  have hl := h.pts.length_getNames
  have hb := byFeature_transpose h
  unfold copyListOfDict
  simp only [Bool.false_eq_true, if_false]
  rw [listOfDict_eq hn (fun r hr => by rw [hb.inner r hr, hl])]
  refine ⟨by rw [List.length_map, hb.length], fun j hj => ?_⟩
  have hlt : j < (transposeData o.fts.len o.data).length := by rw [hb.length]; exact hj
  refine ⟨_, by rw [List.getElem?_map, List.getElem?_eq_getElem hlt]; rfl, ?_⟩
  have hm := maps_zip (vals := (transposeData o.fts.len o.data)[j]) hn
    (by rw [hl, hb.inner _ (List.getElem_mem hlt)])
  refine ⟨hm.keys, fun i n hi hin => ?_⟩
  rw [hm.get i n hin, ← hb.elem i j hi hj, List.getElem?_eq_getElem hlt]
  rfl

/-- C63. A copy as a dictionary of lists: the name of each feature with its values. -/
theorem C63_dict_of_list_partial {o : Obj V} (h : o.WF) (hn : o.fts.getNames.Nodup) :
    (o.copyDictOfList true).keys = o.fts.getNames ∧
    ∀ j n, j < o.fts.len → o.fts.getNames[j]? = some n → ∃ l, PyDict.get? (o.copyDictOfList true) n = some l ∧
      l.length = o.pts.len ∧ ∀ i, i < o.pts.len → l[i]? = o.elem? i j := by
  have hl := h.fts.length_getNames
  have hb := byFeature_transpose h
  unfold copyDictOfList
  rw [if_pos rfl, dictOfList_eq hn (by rw [hb.length, hl])]
  have hm := maps_zip (vals := transposeData o.fts.len o.data) hn (by rw [hl, hb.length])
  refine ⟨hm.keys, fun j n hj hjn => ?_⟩
  have hlt : j < (transposeData o.fts.len o.data).length := by rw [hb.length]; exact hj
  refine ⟨(transposeData o.fts.len o.data)[j], ?_, hb.inner _ (List.getElem_mem hlt), fun i hi => ?_⟩
  · rw [hm.get j n hjn, List.getElem?_eq_getElem hlt]
  · rw [← hb.elem i j hi hj, List.getElem?_eq_getElem hlt]; rfl

/-- C63. Point by point: the name of each point with its values. -/
theorem C63_dict_of_list_points_partial {o : Obj V} (h : o.WF) (hn : o.pts.getNames.Nodup) :
    Maps (o.copyDictOfList false) o.pts.getNames (fun i => o.data[i]?) := by
  unfold copyDictOfList
  simp only [Bool.false_eq_true, if_false]
  rw [dictOfList_eq hn (by rw [h.rows, h.pts.length_getNames])]
  exact maps_zip hn (by rw [h.rows, h.pts.length_getNames])

/-! ## There and back -/

theorem rowValues_zip {names names' : List (Option String)} {r : List V} (hn : names.Nodup)
    (hl : names.length = r.length) (hs : ∀ n ∈ names', n ∈ names) :
    rowValues names' (names.zip r : NameDict V) = (names'.map (fun n => names.idxOf n)).filterMap (r[·]?) := by
  unfold rowValues
  rw [List.filterMap_map]
  refine List.filterMap_congr fun n hn' => ?_
  have hlt : names.idxOf n < names.length := List.idxOf_lt_length_of_mem (hs n hn')
  have : names[names.idxOf n]? = some n := by
    rw [List.getElem?_eq_getElem hlt, List.getElem_idxOf hlt]
  exact get?_zip hn hl this

theorem pickRange_self {A : Type} (r : List A) : (List.range r.length).filterMap (r[·]?) = r := by
  induction r with
  | nil => rfl
  | cons a r ih =>
    rw [List.length_cons, List.range_succ_eq_map, List.filterMap_cons]
    simp only [List.getElem?_cons_zero]
    rw [List.filterMap_map]
    have hc : ((fun x => (a :: r)[x]?) ∘ Nat.succ) = fun x => r[x]? := by
      funext x; simp
    rw [hc, ih]

/-- The columns of a table in another order. -/
def reorder (order : List Nat) (rows : List (List V)) : List (List V) :=
  rows.map (fun r => order.filterMap (r[·]?))

theorem zip_snd {A : Type} {names : List (Option String)} {r : List A} (hl : names.length = r.length) :
    (names.zip r).map Prod.snd = r := List.map_snd_zip (by omega)

theorem sameKeys_zip {names : List (Option String)} {r s : List V} (hr : names.length = r.length)
    (hs : names.length = s.length) : sameKeys (names.zip r : NameDict V) (names.zip s) = true := by
  unfold sameKeys
  rw [keys_zip hr, keys_zip hs]
  simp

/-- The rows read from the dictionaries of a table, for any accepted order of names. -/
theorem listOfDictRows_zip {names : List (Option String)} (hn : names.Nodup) {r : List V} {rest : List (List V)}
    (hr : r.length = names.length) (hrest : ∀ s ∈ rest, s.length = names.length) {fn : NamesArg}
    {used : Option (List (Option String))} {order : List Nat} (hd : dictNames fn names = .ok (used, order))
    (ho : order = ((used.getD names).map (fun n => names.idxOf n))) (hsub : ∀ n ∈ used.getD names, n ∈ names) :
    listOfDictRows fn (names.zip r : NameDict V) (rest.map (fun s => names.zip s))
      = .ok (used, reorder order (r :: rest)) := by
  unfold listOfDictRows
  rw [keys_zip hr.symm]
  simp only [bind, Except.bind, hd, pure, Except.pure]
  rw [if_pos (by
    rw [List.all_map, List.all_eq_true]
    intro s hs
    exact sameKeys_zip hr.symm (hrest s hs).symm)]
  rw [zip_snd hr.symm, List.map_map]
  unfold reorder
  rw [List.map_cons]
  congr 3
  refine List.map_congr_left fun s hs => ?_
  show rowValues _ _ = _
  rw [rowValues_zip hn (hrest s hs).symm hsub, ho]

theorem idxOf_self {names : List (Option String)} (hn : names.Nodup) :
    names.map (fun n => names.idxOf n) = List.range names.length := by
  refine List.ext_getElem? fun i => ?_
  rw [List.getElem?_map]
  by_cases hi : i < names.length
  · rw [List.getElem?_eq_getElem hi, List.getElem?_range hi, Option.map_some, hn.idxOf_getElem]
  · rw [List.getElem?_eq_none (by omega), List.getElem?_eq_none (by simpa using hi)]; rfl

theorem reorder_range {n : Nat} {rows : List (List V)} (h : ∀ r ∈ rows, r.length = n) :
    reorder (List.range n) rows = rows := by
  unfold reorder
  conv_rhs => rw [← List.map_id rows]
  refine List.map_congr_left fun r hr => ?_
  rw [← h r hr, pickRange_self]
  rfl

theorem data_cons {o : Obj V} (h : o.WF) (hp : 0 < o.pts.len) : ∃ r rest, o.data = r :: rest := by
  cases hd : o.data with
  | nil => have := h.rows; rw [hd] at this; simp at this; omega
  | cons r rest => exact ⟨r, rest, rfl⟩

theorem nodup_reduceOption {l : List (Option String)} (h : l.Nodup) : l.reduceOption.Nodup := by
  refine h.filterMap ?_
  intro a b c hc hc'
  simp only [Option.mem_def, id_eq] at hc hc'
  rw [hc, hc']

/-- What `nimble.data` makes of the copy of `o` as a list of dictionaries. -/
def fromCopy (C : CellOps V) (pn fn : NamesArg) (l : List (NameDict V)) : Res (Obj V) :=
  match l with
  | [] => nimbleData C pn fn []
  | first :: rest => nimbleDataListOfDict C pn fn first rest

/-- C63. There and back: the list of dictionaries gives the same elements and names of features (values treated
as missing stored as nan); with a given list `pn` the points are named so, otherwise they have no names. -/
theorem C63_list_of_dict_back_partial {o : Obj V} (h : o.WF) (hn : o.fts.getNames.Nodup) (hp : 0 < o.pts.len)
    (hf : 0 < o.fts.len) (C : CellOps V) {pn : NamesArg} (hpy : pn ≠ .yes) (hpn : goodNames o.pts.len pn.explicit) :
    ∃ r, fromCopy C pn .auto (o.copyListOfDict true) = .ok r ∧
      HoldsRows r (o.data.map (fun r => r.map C.stored)) o.fts.len pn.explicit (some o.fts.getNames) := by
  have hl := h.fts.length_getNames
  obtain ⟨r0, rest, hd⟩ := data_cons h hp
  have hlen : ∀ r ∈ o.data, r.length = o.fts.getNames.length := fun r hr => by rw [h.cols r hr, hl]
  have hcopy : o.copyListOfDict true = o.fts.getNames.zip r0 :: rest.map (fun s => o.fts.getNames.zip s) := by
    unfold copyListOfDict
    rw [if_pos rfl, listOfDict_eq hn hlen, hd]
    rfl
  rw [hcopy]
  have hrows := listOfDictRows_zip hn (hlen r0 (by rw [hd]; simp))
    (rest := rest) (fun s hs => hlen s (by rw [hd]; exact List.mem_cons_of_mem _ hs)) (fn := .auto) (used := some o.fts.getNames)
    (order := List.range o.fts.getNames.length) rfl (by
      rw [Option.getD_some, idxOf_self hn]) (fun n hn => hn)
  rw [reorder_range (by rw [← hd]; exact hlen)] at hrows
  have e1 : chosenNames pn none = pn.explicit := by cases pn <;> simp_all [chosenNames, NamesArg.explicit]
  unfold fromCopy nimbleDataListOfDict
  simp only [hpy, if_false, bind, Except.bind, hrows, e1]
  rw [replaceMissing_eq, ← hd]
  refine finishData_ok C (n := o.fts.len) hf ?_ ?_ ?_ ?_
  · rw [hd]; simp
  · intro r hr
    obtain ⟨s, hs, rfl⟩ := List.mem_map.1 hr
    rw [List.length_map]; exact h.cols s hs
  · rw [List.length_map, h.rows]; exact hpn
  · exact ⟨hl, nodup_reduceOption hn⟩

/-- C63. The names of the features given in another order: their features, in that order. -/
theorem C63_list_of_dict_reordered_partial {o : Obj V} (h : o.WF) (hn : o.fts.getNames.Nodup) (hp : 0 < o.pts.len)
    (hf : 0 < o.fts.len) (C : CellOps V) {names : List (Option String)} (hperm : names.Perm o.fts.getNames) :
    ∃ r, fromCopy C .auto (.given names) (o.copyListOfDict true) = .ok r ∧ r.fts.getNames = names ∧
      r.pts.len = o.pts.len ∧
      ∀ i j k n, names[j]? = some n → o.fts.getNames[k]? = some n →
        r.elem? i j = (o.elem? i k).map C.stored := by
  have hl := h.fts.length_getNames
  obtain ⟨r0, rest, hd⟩ := data_cons h hp
  have hlen : ∀ r ∈ o.data, r.length = o.fts.getNames.length := fun r hr => by rw [h.cols r hr, hl]
  have hcopy : o.copyListOfDict true = o.fts.getNames.zip r0 :: rest.map (fun s => o.fts.getNames.zip s) := by
    unfold copyListOfDict
    rw [if_pos rfl, listOfDict_eq hn hlen, hd]
    rfl
  rw [hcopy]
  have hdn : dictNames (.given names) o.fts.getNames
      = .ok (some names, names.map (fun n => o.fts.getNames.idxOf n)) := by
    unfold dictNames
    dsimp only
    split
    · rename_i e; rw [e, idxOf_self hn]
    · rw [if_pos (by simpa [sameNames] using hperm)]
  have hrows := listOfDictRows_zip hn (hlen r0 (by rw [hd]; simp))
    (rest := rest) (fun s hs => hlen s (by rw [hd]; exact List.mem_cons_of_mem _ hs)) hdn rfl
    (fun n hn => hperm.mem_iff.1 hn)
  unfold fromCopy nimbleDataListOfDict
  have hne : (NamesArg.auto = NamesArg.yes) = False := by simp
  simp only [hne, if_false, bind, Except.bind, hrows]
  rw [replaceMissing_eq, ← hd]
  have hcell : ∀ r ∈ o.data, ∀ (j k : Nat) n, names[j]? = some n → o.fts.getNames[k]? = some n →
      ((names.map (fun n => o.fts.getNames.idxOf n)).filterMap (r[·]?))[j]? = r[k]? := by
    intro r hr j k n hj hk
    have hget : (names.map (fun n => o.fts.getNames.idxOf n)).filterMap (r[·]?)
        = names.filterMap (fun n => r[o.fts.getNames.idxOf n]?) := by rw [List.filterMap_map]; rfl
    rw [hget]
    have hall : ∀ n ∈ names, (r[o.fts.getNames.idxOf n]?).isSome := by
      intro n hn
      have : o.fts.getNames.idxOf n < o.fts.getNames.length :=
        List.idxOf_lt_length_of_mem (hperm.mem_iff.1 hn)
      rw [← hlen r hr] at this
      simp [this]
    have hidx : o.fts.getNames.idxOf n = k := by
      have hk' := List.getElem?_eq_some_iff.1 hk
      rw [← hk'.2, hn.idxOf_getElem]
    rw [← hidx]
    clear hk hidx
    generalize names = ns at hall hj
    induction ns generalizing j with
    | nil => simp at hj
    | cons a ns ih =>
      obtain ⟨v, hv⟩ := Option.isSome_iff_exists.1 (hall a (by simp))
      rw [List.filterMap_cons_some (f := fun n => r[List.idxOf n o.fts.getNames]?) hv]
      cases j with
      | zero => simp at hj; subst hj; rw [List.getElem?_cons_zero, hv]
      | succ j =>
        rw [List.getElem?_cons_succ]
        exact ih j (fun n hn => hall n (List.mem_cons_of_mem _ hn)) (by simpa using hj)
  have hrl : ∀ r ∈ o.data, ((names.map (fun n => o.fts.getNames.idxOf n)).filterMap (r[·]?)).length = o.fts.len := by
    intro r hr
    have hnl : names.length = o.fts.len := by rw [hperm.length_eq, hl]
    rw [← hnl]
    have hget : (names.map (fun n => o.fts.getNames.idxOf n)).filterMap (r[·]?)
        = names.filterMap (fun n => r[o.fts.getNames.idxOf n]?) := by rw [List.filterMap_map]; rfl
    rw [hget]
    have hall : ∀ n ∈ names, (r[o.fts.getNames.idxOf n]?).isSome := by
      intro n hn
      have : o.fts.getNames.idxOf n < o.fts.getNames.length :=
        List.idxOf_lt_length_of_mem (hperm.mem_iff.1 hn)
      rw [← hlen r hr] at this
      simp [this]
    generalize names = ns at hall
    induction ns with
    | nil => rfl
    | cons a ns ih =>
      obtain ⟨v, hv⟩ := Option.isSome_iff_exists.1 (hall a (by simp))
      rw [List.filterMap_cons_some (f := fun n => r[List.idxOf n o.fts.getNames]?) hv, List.length_cons, List.length_cons,
        ih (fun n hn => hall n (List.mem_cons_of_mem _ hn))]
  obtain ⟨r, h1, h2⟩ := finishData_ok C (n := o.fts.len)
    (rows := (reorder (names.map (fun n => o.fts.getNames.idxOf n)) o.data).map (fun r => r.map C.stored))
    (pn := none) (fn := some names) hf (by rw [hd]; simp [reorder])
    (by
      intro r hr
      simp only [reorder, List.map_map, List.mem_map] at hr
      obtain ⟨s, hs, rfl⟩ := hr
      show (List.map _ _).length = _
      rw [List.length_map]; exact hrl s hs)
    trivial ⟨by rw [hperm.length_eq, hl], nodup_reduceOption (hperm.nodup_iff.2 hn)⟩
  refine ⟨r, h1, h2.fnames, ?_, fun i j k n hj hk => ?_⟩
  · rw [← h2.wf.rows, h2.data, reorder, List.length_map, List.length_map, h.rows]
  · unfold elem?
    rw [h2.data, reorder, List.map_map, List.getElem?_map]
    cases hi : o.data[i]? with
    | none => rfl
    | some s =>
      have hs : s ∈ o.data := List.mem_of_getElem? hi
      rw [Option.map_some, Option.bind_some, Option.bind_some]
      show (List.map _ _)[j]? = _
      rw [List.getElem?_map, hcell s hs j k n hj hk]

/-- C63. There and back as a dictionary of lists, one per point, with `featureNames=False`: the same elements
and names of points. -/
theorem C63_dict_of_list_back_partial {o : Obj V} (h : o.WF) (hn : o.pts.getNames.Nodup) (hp : 0 < o.pts.len)
    (hf : 0 < o.fts.len) (C : CellOps V) :
    ∃ r, nimbleDataDictOfList C .auto .no (o.copyDictOfList false) = .ok r ∧
      HoldsRows r (o.data.map (fun r => r.map C.stored)) o.fts.len (some o.pts.getNames) none := by
  have hl := h.pts.length_getNames
  have hlen : o.pts.getNames.length = o.data.length := by rw [hl, h.rows]
  have hcopy : o.copyDictOfList false = o.pts.getNames.zip o.data := by
    unfold copyDictOfList
    simp only [Bool.false_eq_true, if_false]
    exact dictOfList_eq hn hlen.symm
  have hne : (o.pts.getNames.zip o.data).isEmpty = false := by
    rw [List.isEmpty_eq_false_iff]
    intro e
    have := congrArg List.length e
    rw [List.length_zip, hl, h.rows] at this
    simp at this
    omega
  unfold nimbleDataDictOfList
  rw [hcopy, hne, keys_zip hlen]
  simp only [Bool.false_eq_true, if_false, dictNames, bind, Except.bind, reduceCtorEq]
  rw [zip_snd hlen, hlen, pickRange_self]
  have := C53_data_explicit C (rows := o.data) (n := o.fts.len) (pn := .given o.pts.getNames) (fn := .no) hf
    (by intro e; have := h.rows; rw [e] at this; simp at this; omega) h.cols (by simp) (by simp)
    ⟨hlen, nodup_reduceOption hn⟩ trivial
  exact this

/-! ## What is lost -/

/-- C63 is violated: without feature names every feature of a point has the key None, and only the last one is
left. -/
theorem C63_unnamed_violated (r : List V) (x : V) :
    listOfDict (List.replicate (r.length + 1) none) [r ++ [x]] = [[(none, x)]] := by
  unfold listOfDict
  rw [List.map_cons, List.map_nil]
  congr 1
  have : (List.replicate (r.length + 1) (none : Option String)).zip (r ++ [x])
      = (List.replicate r.length none).zip r ++ [(none, x)] := by
    rw [List.replicate_succ', List.zip_append (by simp)]
    rfl
  rw [this, List.foldl_append]
  have hd : ∀ (l : List V) (d : NameDict V), (d = [] ∨ ∃ y, d = [(none, y)]) →
      (((List.replicate l.length (none : Option String)).zip l).foldl (fun d p => PyDict.set d p.1 p.2) d = [] ∨
      ∃ y, ((List.replicate l.length (none : Option String)).zip l).foldl
        (fun d p => PyDict.set d p.1 p.2) d = [(none, y)]) := by
    intro l
    induction l with
    | nil => intro d h; exact h
    | cons a l ih =>
      intro d h
      rw [List.length_cons, List.replicate_succ, List.zip_cons_cons, List.foldl_cons]
      apply ih
      right
      rcases h with rfl | ⟨y, rfl⟩
      · exact ⟨a, rfl⟩
      · exact ⟨a, by simp [PyDict.set]⟩
  rcases hd r [] (Or.inl rfl) with e | ⟨y, e⟩
  · rw [e]; rfl
  · rw [e]; simp [PyDict.set]

/-- What numpy makes of nested lists with a text: all cells become text. -/
def npPromote (rows : List (List Cell)) : List (List Cell) :=
  if rows.any (fun r => r.any (fun c => c.asStr.isSome)) then rows.map (fun r => r.map (fun c => .str c.toStr))
  else rows

/-- The object with the points [1, 'a'] and [2, 'b'], and names. -/
def mixedObj : Obj Cell :=
  ⟨[[.num 1, .str "a"], [.num 2, .str "b"]], ⟨2, some ⟨[("p", 0), ("q", 1)], [some "p", some "q"]⟩⟩,
    ⟨2, some ⟨[("n", 0), ("t", 1)], [some "n", some "t"]⟩⟩⟩

/-- C63 is violated: a copy as a list, feature by feature, turns numbers beside texts into texts. -/
theorem C63_python_list_violated :
    mixedObj.copyPythonList npPromote false = [[.str "1", .str "2"], [.str "a", .str "b"]] ∧
    mixedObj.elem? 0 0 = some (.num 1) := by
  refine ⟨by decide, rfl⟩

/-- C63 is violated: a dictionary of lists (here the copy of an object whose first feature is text and second
numbers) is not accepted back: the first list is taken for the names of features, although names cannot be embedded in
dictionaries; with `featureNames=False` it is accepted. -/
theorem C63_dict_of_list_back_violated (junk : Cell) :
    nimbleDataDictOfList (cellOps junk) .auto .auto
      [(some "t", [.str "a", .str "b"]), (some "n", [.num 1, .num 2])] = .error .InvalidArgumentValue ∧
    ∃ o, nimbleDataDictOfList (cellOps junk) .auto .no
      [(some "t", [.str "a", .str "b"]), (some "n", [.num 1, .num 2])] = .ok o := by
  exact ⟨rfl, _, rfl⟩

/-! ## Examples -/

example : mixedObj.copyListOfDict true
    = [[(some "n", .num 1), (some "t", .str "a")], [(some "n", .num 2), (some "t", .str "b")]] := by decide
example : mixedObj.copyDictOfList true
    = [(some "n", [.num 1, .num 2]), (some "t", [.str "a", .str "b"])] := by decide
example : mixedObj.fts.getNames.Nodup ∧ mixedObj.pts.getNames.Nodup := by decide
example : [some "t", some "n"].Perm mixedObj.fts.getNames := by decide
example (junk : Cell) : fromCopy (cellOps junk) .auto (.given [some "t", some "n"]) (mixedObj.copyListOfDict true)
    = nimbleData (cellOps junk) .no (.given [some "t", some "n"]) [[.str "a", .num 1], [.str "b", .num 2]] := rfl

end Nimble
