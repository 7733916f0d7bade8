import Verif.Model.Collapse
import Verif.Lemmas.Group
import Verif.Props.Names
import Verif.Props.Flatten

/-!
# C36: collapsing and expanding features
-/

namespace Nimble
namespace Collapse
open Obj
variable {V : Type}

/-! ## combineByExpandingFeatures: specification -/

/-- One point as `combineByExpandingFeatures` sees it: its name, the values of the features that are
neither the feature with names nor a feature with values, the value of the feature with names and
the values of the features with values. -/
structure Part (V : Type) where
  pname : Option String
  key : List V
  nm : V
  vals : List V

/-- The points of an object taken apart. -/
def parts (o : Obj V) (uncombined : List Nat) (ni : Nat) (vidx : List Nat) (dflt : V) : List (Part V) :=
  (o.pts.getNames.zip o.data).map (fun p =>
    ⟨p.1, pick p.2 uncombined, (p.2[ni]?).getD dflt, pick p.2 vidx⟩)

variable [DecidableEq V]

/-- The values a combined point has for the name `nm`: those of the point with these retained values
and this name, missing values if there is none. -/
def valuesFor (nan : V) (e : Nat) (T : List (Part V)) (key : List V) (nm : V) : List V :=
  match T.find? (fun t => decide (t.key = key ∧ t.nm = nm)) with
  | some t => t.vals
  | none => List.replicate e nan

/-- The table `combineByExpandingFeatures` is documented to produce: a point for every combination
of retained values, in order of first appearance; in place of the combined features, for every name
in order of first appearance, the values for it. -/
def expandedTable (nan : V) (ni e : Nat) (T : List (Part V)) : List (List V) :=
  (firstOcc (T.map Part.key)).map (fun key =>
    key.take ni ++ (firstOcc (T.map Part.nm)).flatMap (valuesFor nan e T key) ++ key.drop ni)

/-- The point names of the combined points: that of the first point combined. -/
def firstNames (T : List (Part V)) : List (Option String) :=
  (firstOcc (T.map Part.key)).map (fun key => ((T.find? (fun t => decide (t.key = key))).map Part.pname).join)

/-! ## The loop over the points -/

def stepP (st : ExpandSt V) (t : Part V) : Res (ExpandSt V) :=
  expandStep st t.pname t.key t.nm t.vals

theorem expandLoop_eq (unc : List Nat) (ni : Nat) (vidx : List Nat) (dflt : V)
    (rows : List (Option String × List V)) (h : ∀ p ∈ rows, ni < p.2.length) (st : ExpandSt V) :
    expandLoop unc ni vidx rows st = (rows.map (fun p =>
      (⟨p.1, pick p.2 unc, (p.2[ni]?).getD dflt, pick p.2 vidx⟩ : Part V))).foldlM stepP st := by
  induction rows generalizing st with
  | nil => rfl
  | cons p rest ih =>
    obtain ⟨pn, row⟩ := p
    have hr : ni < row.length := h _ (List.mem_cons_self ..)
    simp only [expandLoop, List.getElem?_eq_getElem hr, List.map_cons, List.foldlM_cons,
      Option.getD_some, stepP]
    cases expandStep st pn (pick row unc) row[ni] (pick row vidx) with
    | error e => rfl
    | ok st' => exact ih (fun p hp => h p (List.mem_cons_of_mem _ hp)) st'

/-- The closed form of the loop's final state. -/
def stateOf (T : List (Part V)) : ExpandSt V where
  unique := (firstOcc (T.map Part.key)).map (fun k =>
    (k, (T.filter (fun t => decide (t.key = k))).map (fun t => (t.nm, t.vals))))
  pNames := firstNames T
  uniqueNames := firstOcc (T.map Part.nm)

private theorem find?_eq_none_of {T : List (Part V)} {k : List V} (h : k ∉ T.map Part.key) :
    T.find? (fun t => decide (t.key = k)) = none := by
  rw [List.find?_eq_none]
  intro t ht he
  simp only [decide_eq_true_eq] at he
  exact h (List.mem_map.2 ⟨t, ht, he⟩)

private theorem firstNames_snoc (T : List (Part V)) (t : Part V) :
    firstNames (T ++ [t]) = if t.key ∈ T.map Part.key then firstNames T
      else firstNames T ++ [t.pname] := by
  unfold firstNames
  rw [List.map_append]
  simp only [List.map_cons, List.map_nil, firstOcc_append_singleton]
  have hold : ∀ k ∈ T.map Part.key, (T ++ [t]).find? (fun t => decide (t.key = k))
      = T.find? (fun t => decide (t.key = k)) := by
    intro k hk
    rw [List.find?_append]
    obtain ⟨u, hu, rfl⟩ := List.mem_map.1 hk
    have : (T.find? (fun t => decide (t.key = u.key))).isSome := by
      rw [List.find?_isSome]; exact ⟨u, hu, by simp⟩
    obtain ⟨w, hw⟩ := Option.isSome_iff_exists.1 this
    rw [hw]; rfl
  by_cases hm : t.key ∈ T.map Part.key
  · rw [if_pos hm, if_pos hm]
    apply List.map_congr_left
    intro k hk
    rw [hold k (mem_firstOcc.1 hk)]
  · rw [if_neg hm, if_neg hm, List.map_append]
    congr 1
    · apply List.map_congr_left
      intro k hk
      rw [hold k (mem_firstOcc.1 hk)]
    · simp [List.find?_append, find?_eq_none_of hm]

private theorem has_inner {T : List (Part V)} {k : List V} {nm : V} :
    PyDict.has ((T.filter (fun t => decide (t.key = k))).map (fun t => (t.nm, t.vals))) nm = true
      ↔ (k, nm) ∈ T.map (fun t => (t.key, t.nm)) := by
  rw [PyDict.has_iff]
  unfold PyDict.keys
  simp only [List.map_map, List.mem_map, List.mem_filter, decide_eq_true_eq, Function.comp, Prod.mk.injEq]
  constructor
  · rintro ⟨t, ⟨h1, h2⟩, h3⟩; exact ⟨t, h1, h2, h3⟩
  · rintro ⟨t, h1, h2, h3⟩; exact ⟨t, ⟨h1, h2⟩, h3⟩

private theorem step_state (T : List (Part V)) (t : Part V) :
    stepP (stateOf T) t = if (t.key, t.nm) ∈ T.map (fun t => (t.key, t.nm)) then
      .error .ImproperObjectAction else .ok (stateOf (T ++ [t])) := by
  unfold stepP expandStep
  have hget : (PyDict.get? (stateOf T).unique t.key).getD []
      = (T.filter (fun u => decide (u.key = t.key))).map (fun t => (t.nm, t.vals)) := by
    unfold stateOf
    simp only [get?_mapKeys]
    by_cases hm : t.key ∈ T.map Part.key
    · rw [if_pos (mem_firstOcc.2 hm)]; rfl
    · rw [if_neg (fun h => hm (mem_firstOcc.1 h))]
      have : T.filter (fun u => decide (u.key = t.key)) = [] := by
        rw [List.filter_eq_nil_iff]
        intro u hu he
        simp only [decide_eq_true_eq] at he
        exact hm (List.mem_map.2 ⟨u, hu, he⟩)
      rw [this]; rfl
  have hhas : PyDict.has (stateOf T).unique t.key = decide (t.key ∈ T.map Part.key) := by
    unfold stateOf PyDict.has
    simp only [get?_mapKeys]
    by_cases hm : t.key ∈ T.map Part.key
    · rw [if_pos (mem_firstOcc.2 hm)]; simp [hm]
    · rw [if_neg (fun h => hm (mem_firstOcc.1 h))]; simp [hm]
  simp only [hget, hhas]
  by_cases hd : (t.key, t.nm) ∈ T.map (fun t => (t.key, t.nm))
  · rw [if_pos hd, if_pos (has_inner.2 hd)]
  · rw [if_neg hd, if_neg (fun h => hd (has_inner.1 h))]
    congr 1
    have hset : PyDict.set ((T.filter (fun u => decide (u.key = t.key))).map (fun t => (t.nm, t.vals)))
        t.nm t.vals
        = (T.filter (fun u => decide (u.key = t.key))).map (fun t => (t.nm, t.vals))
          ++ [(t.nm, t.vals)] := by
      apply PyDict.set_of_not_mem
      intro h
      exact hd (has_inner.1 (PyDict.has_iff.2 h))
    unfold stateOf
    simp only [ExpandSt.mk.injEq]
    refine ⟨?_, ?_, ?_⟩
    · rw [hset, List.map_append]
      simp only [List.map_cons, List.map_nil, firstOcc_append_singleton]
      by_cases hm : t.key ∈ T.map Part.key
      · rw [if_pos hm, set_mapKeys_mem (nodup_firstOcc _) _ (mem_firstOcc.2 hm)]
        apply List.map_congr_left
        intro k _
        by_cases hk : k = t.key
        · subst hk; simp [List.filter_append]
        · simp [List.filter_append, hk, Ne.symm hk]
      · rw [if_neg hm, set_mapKeys_notMem _ (fun h => hm (mem_firstOcc.1 h)), List.map_append]
        congr 1
        · apply List.map_congr_left
          intro k hk
          have hne : t.key ≠ k := fun e => hm (mem_firstOcc.1 (e ▸ hk))
          simp [List.filter_append, hne]
        · simp [List.filter_append]
    · rw [firstNames_snoc]
      by_cases hm : t.key ∈ T.map Part.key <;> simp [hm]
    · rw [List.map_append]
      simp only [List.map_cons, List.map_nil, firstOcc_append_singleton]
      by_cases hm : t.nm ∈ T.map Part.nm
      · rw [if_pos hm, if_pos (mem_firstOcc.2 hm)]
      · rw [if_neg hm, if_neg (fun h => hm (mem_firstOcc.1 h))]

theorem loop_state (T : List (Part V)) :
    T.foldlM stepP {} = if (T.map (fun t => (t.key, t.nm))).Nodup then .ok (stateOf T)
      else .error .ImproperObjectAction := by
  induction T using List.reverseRecOn with
  | nil => rfl
  | append_singleton T t ih =>
    rw [List.foldlM_append, ih, List.map_append]
    simp only [List.map_cons, List.map_nil]
    by_cases hn : (T.map (fun t => (t.key, t.nm))).Nodup
    · rw [if_pos hn]
      simp only [List.foldlM_cons, List.foldlM_nil, bind, Except.bind]
      rw [step_state]
      by_cases hd : (t.key, t.nm) ∈ T.map (fun t => (t.key, t.nm))
      · rw [if_pos hd, if_neg]
        intro hh
        rw [List.nodup_append] at hh
        exact hh.2.2 _ hd _ (List.mem_singleton.2 rfl) rfl
      · rw [if_neg hd, if_pos]
        · rfl
        · rw [List.nodup_append]
          refine ⟨hn, List.nodup_singleton _, ?_⟩
          intro a ha b hb he
          rw [List.mem_singleton] at hb
          exact hd (by rw [← hb, ← he]; exact ha)
    · rw [if_neg hn, if_neg]
      · rfl
      · intro hh; exact hn (List.nodup_append.1 hh).1

/-! ## Filling the rows -/

private theorem assignSlice_eq (A B C S : List V) (h : S.length = B.length) :
    assignSlice (A ++ B ++ C) A.length (A.length + B.length) S = .ok (A ++ S ++ C) := by
  unfold assignSlice
  have h1 : min A.length (A ++ B ++ C).length = A.length := by simp
  have h2 : min (A.length + B.length) (A ++ B ++ C).length = A.length + B.length := by
    simp only [List.length_append]; omega
  rw [h1, h2]
  simp only [fillRow]
  rw [if_pos (by omega)]
  simp only [bind, Except.bind, pure, Except.pure]
  congr 2
  · simp
  · rw [show max A.length (A.length + B.length) = (A ++ B).length by simp]
    simp

private theorem assignSlice_at {row A B C : List V} (S : List V) {a b : Nat} (hr : row = A ++ B ++ C)
    (ha : a = A.length) (hb : b = A.length + B.length) (h : S.length = B.length) :
    assignSlice row a b S = .ok (A ++ S ++ C) := by
  subst hr ha hb; exact assignSlice_eq A B C S h

private theorem fillNames_eq (ops : CollapseOps V) (ni e : Nat) (inner : PyDict V (List V))
    (hin : ∀ nm v, PyDict.get? inner nm = some v → v.length = e) :
    ∀ (names : List V) (j : Nat) (P Q R : List V), P.length = ni + j * e →
      Q.length = names.length * e →
      fillNames ops ni e inner j names (P ++ Q ++ R) = .ok (P ++ names.flatMap (fun nm =>
        (PyDict.get? inner nm).getD (List.replicate e ops.nan)) ++ R) := by
  intro names
  induction names with
  | nil =>
    intro j P Q R _ hq
    have : Q = [] := by apply List.length_eq_zero_iff.1; simpa using hq
    subst this
    simp [fillNames]
  | cons nm rest ih =>
    intro j P Q R hp hq
    have hq' : Q.length = e + rest.length * e := by
      rw [hq, List.length_cons, Nat.add_mul]; omega
    have hs : ((PyDict.get? inner nm).getD (List.replicate e ops.nan)).length = e := by
      cases hg : PyDict.get? inner nm with
      | none => simp
      | some v => simpa using hin nm v hg
    unfold fillNames
    dsimp only
    rw [assignSlice_at (A := P) (B := Q.take e) (C := Q.drop e ++ R) _
      (by simp only [List.append_assoc]; rw [← List.append_assoc (Q.take e), List.take_append_drop])
      hp.symm (by rw [List.length_take]; omega) (by rw [hs, List.length_take]; omega)]
    simp only [bind, Except.bind]
    have := ih (j + 1) (P ++ (PyDict.get? inner nm).getD (List.replicate e ops.nan)) (Q.drop e) R
      (by rw [List.length_append, hs, hp, Nat.add_mul]; omega) (by rw [List.length_drop]; omega)
    rw [show P ++ (PyDict.get? inner nm).getD (List.replicate e ops.nan) ++ (Q.drop e ++ R)
      = P ++ (PyDict.get? inner nm).getD (List.replicate e ops.nan) ++ Q.drop e ++ R by simp, this]
    simp

private theorem fillExpanded_eq (ops : CollapseOps V) (ni e : Nat) (names key : List V)
    (inner : PyDict V (List V)) (hin : ∀ nm v, PyDict.get? inner nm = some v → v.length = e)
    (hk : ni ≤ key.length) :
    fillExpanded ops ni e (key.length + names.length * e) names key inner
      = .ok (key.take ni ++ names.flatMap (fun nm =>
          (PyDict.get? inner nm).getD (List.replicate e ops.nan)) ++ key.drop ni) := by
  unfold fillExpanded
  have hlen : (names.flatMap (fun nm =>
          (PyDict.get? inner nm).getD (List.replicate e ops.nan))).length = names.length * e := by
    clear hk
    induction names with
    | nil => simp
    | cons a l ih =>
      rw [List.flatMap_cons, List.length_append, ih, List.length_cons, Nat.add_mul]
      cases hg : PyDict.get? inner a with
      | none => simp; omega
      | some v => simp [hin a v hg]; omega
  dsimp only
  rw [assignSlice_at (A := []) (B := List.replicate ni ops.undef)
    (C := List.replicate (names.length * e) ops.undef ++ List.replicate (key.length - ni) ops.undef)
    (key.take ni) (by
      rw [List.nil_append, ← List.replicate_add, ← List.replicate_add]; congr 1; omega)
    (by simp) (by simp) (by simp; omega)]
  simp only [bind, Except.bind, List.nil_append]
  rw [← List.append_assoc, fillNames_eq ops ni e inner hin names 0 _ _ _ (by simp; omega) (by simp)]
  simp only []
  rw [assignSlice_at (A := key.take ni ++ names.flatMap (fun nm =>
          (PyDict.get? inner nm).getD (List.replicate e ops.nan)))
    (B := List.replicate (key.length - ni) ops.undef) (C := []) (key.drop ni) (by simp)
    (by rw [List.length_append, hlen, List.length_take]; omega)
    (by rw [List.length_append, hlen, List.length_take, List.length_replicate]; omega) (by simp)]
  simp

theorem get?_filterMap {T : List (Part V)} {k : List V} (nm : V) (nan : V) (e : Nat) :
    (PyDict.get? ((T.filter (fun t => decide (t.key = k))).map (fun t => (t.nm, t.vals))) nm).getD
      (List.replicate e nan) = valuesFor nan e T k nm := by
  unfold valuesFor
  induction T with
  | nil => rfl
  | cons t T ih =>
    by_cases h1 : t.key = k
    · by_cases h2 : t.nm = nm
      · simp [h1, h2, PyDict.get?]
      · simp only [h1, decide_true, List.filter_cons_of_pos, List.map_cons, PyDict.get?, h2, if_false,
          and_false, decide_false, List.find?_cons]
        simpa using ih
    · simp only [h1, decide_false, false_and, List.find?_cons]
      rw [List.filter_cons_of_neg (by simp [h1])]
      simpa using ih

theorem fillAll_eq (ops : CollapseOps V) (ni e u : Nat) (T : List (Part V))
    (hu : ∀ t ∈ T, t.key.length = u) (hv : ∀ t ∈ T, t.vals.length = e) (hk : ni ≤ u) :
    fillAll ops ni e (u + (firstOcc (T.map Part.nm)).length * e) (firstOcc (T.map Part.nm))
      (stateOf T).unique = .ok (expandedTable ops.nan ni e T) := by
  unfold stateOf expandedTable
  simp only []
  have hkeys : ∀ k ∈ firstOcc (T.map Part.key), k.length = u := by
    intro k hk'
    obtain ⟨t, ht, rfl⟩ := List.mem_map.1 (mem_firstOcc.1 hk')
    exact hu t ht
  generalize firstOcc (T.map Part.key) = ks at *
  induction ks with
  | nil => rfl
  | cons k ks ih =>
    simp only [List.map_cons, fillAll]
    rw [← hkeys k (by simp)]
    rw [fillExpanded_eq ops ni e _ k _ (by
      intro nm v hg
      have := PyDict.mem_of_get? hg
      obtain ⟨t, ht, he⟩ := List.mem_map.1 this
      simp only [Prod.mk.injEq] at he
      rw [← he.2]
      exact hv t (List.mem_filter.1 ht).1) (by rw [hkeys k (by simp)]; exact hk)]
    rw [hkeys k (by simp)]
    have := ih (fun k hk => hkeys k (List.mem_cons_of_mem _ hk))
    simp only [bind, Except.bind, this, pure, Except.pure]
    rw [show (fun nm => (PyDict.get? ((T.filter (fun t => decide (t.key = k))).map
        (fun t => (t.nm, t.vals))) nm).getD (List.replicate e ops.nan)) = valuesFor ops.nan e T k from
      funext (fun nm => get?_filterMap nm ops.nan e)]

/-! ## Names -/

private theorem setOne {a : AxisSt} (ha : a.Ok) (i : Nat) (s : String) :
    (∀ a', a.setNamesPartial [some s] [.int (i : Int)] = (a', .ok ()) →
      i < a.len ∧ a'.Ok ∧ a'.len = a.len ∧ a'.getNames = a.getNames.set i (some s)) ∧
    (i < a.len → some s ∉ a.getNames →
      ∃ a', a.setNamesPartial [some s] [.int (i : Int)] = (a', .ok ())) := by
  by_cases hi : i < a.len
  · have hres : [Ident.int (i : Int)].map (fun id => a.getIndex id)
        = [i].map (fun (i : Nat) => (.ok (i : Int) : Res Int)) := by
      simp only [List.map_cons, List.map_nil, List.cons.injEq, and_true]
      exact (C04_getIndex_int a i i).2 ⟨by omega, by omega, by simp⟩
    have key := C03_setNames_partial_exact_partial ha (new := [some s]) (old := [.int (i : Int)]) rfl
      (by omega) hres (by simp) (by simp)
    simp only at key
    constructor
    · intro a' h
      rw [h] at key
      obtain ⟨h1, h2, -, h3, h4⟩ := key.2.1 rfl
      refine ⟨hi, h2, h1, ?_⟩
      have hl : a'.getNames.length = a.getNames.length := by
        rw [h2.length_getNames, ha.length_getNames, h1]
      apply List.ext_getElem?
      intro k
      by_cases hk : k = i
      · subst hk
        rw [List.getElem?_set_self (by rw [ha.length_getNames]; exact hi)]
        have := h3 0 k rfl
        simpa using this
      · rw [h4 k (by simpa using hk), List.getElem?_set_ne (fun e => hk e.symm)]
    · intro _ hs
      refine ⟨(a.setNamesPartial [some s] [.int (i : Int)]).1, ?_⟩
      have := key.1.2 (by
        intro s' j k h1 h2
        cases j with
        | zero =>
          simp only [List.getElem?_cons_zero, Option.some.injEq] at h1
          subst h1
          exact absurd (List.mem_of_getElem? h2) hs
        | succ j => simp at h1)
      rw [← this]
  · refine ⟨fun a' h => ?_, fun h => absurd h hi⟩
    exfalso
    unfold AxisSt.setNamesPartial at h
    by_cases h0 : a.len = 0
    · rw [if_pos h0] at h; cases h
    · rw [if_neg h0, if_pos ⟨by simp; omega, rfl⟩] at h
      dsimp only at h
      split at h
      · cases h
      · have : a.touch.getIndex (.int (i : Int)) = .error .IndexError := by
          simp only [AxisSt.getIndex, touch_len]
          rw [if_neg h0, if_neg (show ¬ ((i : Int) < 0) by omega), if_pos (Or.inr (by omega))]
        simp only [resolveOld, this, bind, Except.bind] at h
        cases h

private theorem nameOneByOne_ok : ∀ (new : List String) (i : Nat) (a a' : AxisSt), a.Ok →
    nameOneByOne a i new = (a', .ok ()) →
      a'.Ok ∧ a'.len = a.len ∧ (new ≠ [] → i + new.length ≤ a.len) ∧
      a'.getNames = a.getNames.take i ++ (new.map some ++ a.getNames.drop (i + new.length)) := by
  intro new
  induction new with
  | nil =>
    intro i a a' ha h
    simp only [nameOneByOne, Prod.mk.injEq, and_true] at h
    subst h
    exact ⟨ha, rfl, by simp, by simp⟩
  | cons s new ih =>
    intro i a a' ha h
    unfold nameOneByOne at h
    split at h
    · cases h
    · rename_i a1 h1
      obtain ⟨hi, e1, e2, e3⟩ := (setOne ha i s).1 a1 h1
      obtain ⟨f1, f2, f3, f4⟩ := ih (i + 1) a1 a' e1 h
      have hlen := ha.length_getNames
      refine ⟨f1, by rw [f2, e2], ?_, ?_⟩
      · intro _
        by_cases hn : new = []
        · subst hn; simp; omega
        · have := f3 hn; rw [e2] at this; simp; omega
      · rw [f4, e3]
        rw [show i + (s :: new).length = i + 1 + new.length by simp; omega]
        rw [List.drop_set_of_lt (by omega), List.take_add_one, List.take_set_of_le (le_refl i),
          List.getElem?_set_self (by omega)]
        simp

private theorem nameOneByOne_total : ∀ (new : List String) (i : Nat) (a : AxisSt), a.Ok →
    i + new.length ≤ a.len → new.Nodup → (∀ s ∈ new, some s ∉ a.getNames) →
    ∃ a', nameOneByOne a i new = (a', .ok ()) := by
  intro new
  induction new with
  | nil => intro i a _ _ _ _; exact ⟨a, rfl⟩
  | cons s new ih =>
    intro i a ha hl hn hf
    obtain ⟨a1, h1⟩ := (setOne ha i s).2 (by simp at hl; omega) (hf s (by simp))
    obtain ⟨-, e1, e2, e3⟩ := (setOne ha i s).1 a1 h1
    rw [List.nodup_cons] at hn
    obtain ⟨a', h2⟩ := ih (i + 1) a1 e1 (by rw [e2]; simp at hl; omega) hn.2 (by
      intro t ht hm
      rw [e3] at hm
      rcases List.mem_or_eq_of_mem_set hm with h | h
      · exact hf t (List.mem_cons_of_mem _ ht) h
      · cases h; exact hn.1 ht)
    refine ⟨a', ?_⟩
    unfold nameOneByOne
    rw [h1]
    exact h2

/-- The names of the retained features. -/
def keptNames (o : Obj V) (unc : List Nat) : List (Option String) :=
  unc.map (fun i => (o.fts.getNames[i]?).join)

private theorem keptNames_none {a : AxisSt} (h : a.tbl = none) (unc : List Nat) :
    unc.map (fun i => (a.getNames[i]?).join) = List.replicate unc.length none := by
  rw [List.eq_replicate_iff]
  refine ⟨by simp, ?_⟩
  intro x hx
  obtain ⟨i, -, rfl⟩ := List.mem_map.1 hx
  simp only [AxisSt.getNames, h, List.getElem?_replicate]
  split <;> rfl

private theorem finalFeatureNames_spec {old : AxisSt} {n : Nat} {unc : List Nat} {ni : Nat}
    {new : List String} (hlen : n = unc.length + new.length) (hni : ni ≤ unc.length) :
    (∀ a', finalFeatureNames ⟨n, old.tbl⟩ old unc ni new = (a', .ok ()) →
      a'.Ok ∧ a'.len = n ∧ a'.getNames
        = (unc.map (fun i => (old.getNames[i]?).join)).take ni ++ new.map some
          ++ (unc.map (fun i => (old.getNames[i]?).join)).drop ni) ∧
    (((unc.map (fun i => (old.getNames[i]?).join)).take ni ++ new.map some
          ++ (unc.map (fun i => (old.getNames[i]?).join)).drop ni).reduceOption.Nodup →
      ∃ a', finalFeatureNames ⟨n, old.tbl⟩ old unc ni new = (a', .ok ())) := by
  unfold finalFeatureNames
  cases hT : old.tbl with
  | some t =>
    have hn : old.getNames = t.inv := AxisSt.getNames_of_some hT
    simp only [hn]
    constructor
    · intro a' h
      split at h
      · cases h
      · rename_i a1 h1
        simp only [Prod.mk.injEq, and_true] at h
        subst h
        obtain ⟨-, -, e3, e4⟩ := setNames_list_ok h1
        exact ⟨e4, by rw [e3], by rw [e3]; rfl⟩
    · intro h
      rw [setNames_list_eq, if_pos ⟨by simp; omega, h⟩]
      exact ⟨_, rfl⟩
  | none =>
    simp only [keptNames_none hT]
    have hok : AxisSt.Ok ⟨n, none⟩ := none_ok n
    have hg : AxisSt.getNames ⟨n, none⟩ = List.replicate n none := rfl
    constructor
    · intro a' h
      obtain ⟨e1, e2, -, e4⟩ := nameOneByOne_ok new ni _ a' hok h
      refine ⟨e1, e2, ?_⟩
      rw [e4, hg, List.take_replicate, List.take_replicate, List.drop_replicate, List.drop_replicate,
        List.append_assoc]
      have q1 : min ni n = min ni unc.length := by omega
      have q2 : n - (ni + new.length) = unc.length - ni := by omega
      rw [q1, q2]
    · intro h
      refine nameOneByOne_total new ni _ hok (by show _ ≤ n; omega) ?_ ?_
      · rw [List.reduceOption_append, List.reduceOption_append, reduceOption_map_some] at h
        rw [List.nodup_append] at h
        exact (List.nodup_append.1 h.1).2.1
      · intro s _ hm
        rw [hg] at hm
        cases (List.mem_replicate.1 hm).2

private theorem firstNames_sublist (T : List (Part V)) :
    (firstNames T).Sublist (T.map Part.pname) := by
  induction T using List.reverseRecOn with
  | nil => exact List.Sublist.refl _
  | append_singleton T t ih =>
    rw [firstNames_snoc, List.map_append]
    split
    · exact ih.trans (List.sublist_append_left _ _)
    · exact ih.append (List.Sublist.refl _)

private theorem reduceOption_sublist {A : Type} {l l' : List (Option A)} (h : l.Sublist l') :
    l.reduceOption.Sublist l'.reduceOption := h.filterMap _

private theorem length_firstNames (T : List (Part V)) :
    (firstNames T).length = (firstOcc (T.map Part.key)).length := by
  unfold firstNames; simp

private theorem parts_pname {o : Obj V} (h : o.WF) (unc : List Nat) (ni : Nat) (vidx : List Nat)
    (d : V) : (parts o unc ni vidx d).map Part.pname = o.pts.getNames := by
  unfold parts
  rw [List.map_map]
  have : (Part.pname ∘ fun p : Option String × List V =>
    (⟨p.1, pick p.2 unc, (p.2[ni]?).getD d, pick p.2 vidx⟩ : Part V)) = Prod.fst := rfl
  rw [this, List.map_fst_zip]
  rw [h.pts.length_getNames, h.rows]

/-! ## combineByExpandingFeatures: theorems -/

/-- The retained features of a call. -/
def uncombined (o : Obj V) (ni : Nat) (vidx : List Nat) : List Nat :=
  (List.range o.fts.len).filter (fun i => i ∉ ni :: vidx)

/-- The new feature names: for one feature with values the texts of the names; for several, each of
these with each value feature's name appended after an underscore. -/
def newLabels (strs : List String) (valueNames : List String) : List String :=
  if valueNames.length ≤ 1 then strs
  else strs.flatMap (fun p => valueNames.map (fun s => p ++ "_" ++ s))

/-- All feature names of the result. -/
def allLabels (o : Obj V) (ni : Nat) (vidx : List Nat) (labels : List String) :
    List (Option String) :=
  (keptNames o (uncombined o ni vidx)).take ni ++ labels.map some
    ++ (keptNames o (uncombined o ni vidx)).drop ni

private theorem suffixes_str (a : AxisSt) (ss : List String) :
    suffixes a (ss.map Ident.str) = .ok ss := by
  induction ss with
  | nil => rfl
  | cons s ss ih => simp [suffixes, suffixOf, ih, bind, Except.bind, pure, Except.pure]

/-- The names of the features with values are given as names, or there is only one of them. -/
def ValueNames (valueIds : List Ident) (vnames : List String) : Prop :=
  vnames.length = valueIds.length ∧ (1 < valueIds.length → valueIds = vnames.map Ident.str)

theorem expandedNames_eq {a : AxisSt} {ps vnames : List String} {valueIds : List Ident}
    (h : ValueNames valueIds vnames) : expandedNames a ps valueIds = .ok (newLabels ps vnames) := by
  unfold expandedNames newLabels
  by_cases h1 : valueIds.length > 1
  · rw [if_pos h1, if_neg (by rw [h.1]; omega), h.2 h1, suffixes_str]; rfl
  · rw [if_neg h1, if_pos (by rw [h.1]; omega)]

private theorem length_newLabels {ps vnames : List String} (h : 0 < vnames.length) :
    (newLabels ps vnames).length = ps.length * vnames.length := by
  unfold newLabels
  split
  · have : vnames.length = 1 := by omega
    rw [this]; simp
  · induction ps with
    | nil => simp
    | cons p ps ih => rw [List.flatMap_cons, List.length_append, ih]; simp [Nat.add_mul]; omega

private theorem prefixes_ok {ops : CollapseOps V} {l : List V} :
    (∀ ps, prefixes ops false l = .ok ps → ps = l.map ops.str ∧ (l.map ops.str).Nodup) ∧
    ((l.map ops.str).Nodup → prefixes ops false l = .ok (l.map ops.str)) := by
  unfold prefixes
  constructor
  · intro ps h
    dsimp only at h
    split at h
    · rename_i hn; exact ⟨(Except.ok.inj h).symm, hn⟩
    · simp at h
  · intro h
    dsimp only
    rw [if_pos h]

theorem row_facts {o : Obj V} (h : o.WF) {ni : Nat} {vidx : List Nat}
    (hd : (ni :: vidx).Nodup) (hb : ∀ i ∈ ni :: vidx, i < o.fts.len) (dflt : V) :
    (∀ t ∈ parts o (uncombined o ni vidx) ni vidx dflt,
      t.key.length = o.fts.len - (1 + vidx.length)) ∧
    (∀ t ∈ parts o (uncombined o ni vidx) ni vidx dflt, t.vals.length = vidx.length) ∧
    (uncombined o ni vidx).length = o.fts.len - (1 + vidx.length) ∧
    (∀ p ∈ o.pts.getNames.zip o.data, ni < p.2.length) := by
  have hrow : ∀ p ∈ o.pts.getNames.zip o.data, p.2.length = o.fts.len := by
    intro p hp
    exact h.cols _ (List.of_mem_zip hp).2
  have hu : (uncombined o ni vidx).length = o.fts.len - (1 + vidx.length) := by
    unfold uncombined
    rw [length_rest hd hb, List.length_cons, Nat.add_comm]
  refine ⟨?_, ?_, hu, fun p hp => by rw [hrow p hp]; exact hb ni (by simp)⟩
  · intro t ht
    obtain ⟨p, hp, rfl⟩ := List.mem_map.1 ht
    show (pick p.2 _).length = _
    rw [length_pick, hu]
    intro i hi
    rw [hrow p hp]; exact (mem_rest.1 hi).1
  · intro t ht
    obtain ⟨p, hp, rfl⟩ := List.mem_map.1 ht
    show (pick p.2 _).length = _
    rw [length_pick]
    intro i hi
    rw [hrow p hp]; exact hb i (List.mem_cons_of_mem _ hi)

theorem resolve_length {a : AxisSt} (ha : a.Ok) {ids : List Ident} {l : List Nat}
    (h : resolveIdents a ids = .ok l) : l.length = ids.length := by
  have := congrArg List.length ((resolveIdents_ok_iff a ids l ha).1 h)
  simpa using this.symm

/-- The whole call in terms of the specification, as far as the names of the points. -/
theorem combine_unfold {o : Obj V} (h : o.WF) (ops : CollapseOps V) {namesId : Ident}
    {valueIds : List Ident} {ni : Nat} {vidx : List Nat} {vnames : List String}
    (hn : o.fts.getIndex namesId = .ok (ni : Int)) (hv : resolveIdents o.fts valueIds = .ok vidx)
    (hd : (ni :: vidx).Nodup) (hpos : ni + 1 + vidx.length ≤ o.fts.len)
    (hvn : ValueNames valueIds vnames) :
    combineByExpanding ops o namesId valueIds false =
      (let T := parts o (uncombined o ni vidx) ni vidx ops.undef
       if (T.map (fun t => (t.key, t.nm))).Nodup then
        match prefixes ops false (firstOcc (T.map Part.nm)) with
        | .error x => (o, .error x)
        | .ok ps =>
          let n := (uncombined o ni vidx).length + (firstOcc (T.map Part.nm)).length * vidx.length
          let o1 : Obj V := ⟨expandedTable ops.nan ni vidx.length T,
            ⟨(firstOcc (T.map Part.key)).length, o.pts.tbl⟩, ⟨n, o.fts.tbl⟩⟩
          match finalFeatureNames o1.fts o.fts (uncombined o ni vidx) ni (newLabels ps vnames) with
          | (fts, .error x) => ({ o1 with fts := fts }, .error x)
          | (fts, .ok ()) =>
            match o.pts.tbl with
            | none => ({ o1 with fts := fts }, .ok ())
            | some _ =>
              match o1.pts.setNames (.list (firstNames T)) with
              | .error x => ({ o1 with fts := fts }, .error x)
              | .ok pts => ({ o1 with fts := fts, pts := pts }, .ok ())
       else (o, .error .ImproperObjectAction)) := by
  have hbn : ni < o.fts.len := by
    have := getIndex_bound h.fts hn; omega
  have hb : ∀ i ∈ ni :: vidx, i < o.fts.len := by
    intro i hi
    rcases List.mem_cons.1 hi with rfl | hi
    · exact hbn
    · exact resolveIdents_bound h.fts hv i hi
  obtain ⟨f1, f2, f3, f4⟩ := row_facts h hd hb ops.undef
  have hlen := resolve_length h.fts hv
  unfold combineByExpanding
  rw [hn, hv]
  dsimp only
  rw [Int.toNat_natCast, if_neg (fun hc => hc.1 (List.nodup_cons.1 hd).2)]
  change (match expandLoop (uncombined o ni vidx) ni vidx (o.pts.getNames.zip o.data) {} with
    | .error e => _ | .ok st => _) = _
  rw [expandLoop_eq (uncombined o ni vidx) ni vidx ops.undef _ f4]
  change (match (parts o (uncombined o ni vidx) ni vidx ops.undef).foldlM stepP {} with
    | .error e => _ | .ok st => _) = _
  rw [loop_state]
  by_cases hp : ((parts o (uncombined o ni vidx) ni vidx ops.undef).map (fun t => (t.key, t.nm))).Nodup
  · rw [if_pos hp, if_pos hp]
    dsimp only
    change (match prefixes ops false (firstOcc ((parts o (uncombined o ni vidx) ni vidx ops.undef).map Part.nm)) with
      | .error e => _ | .ok st => _) = _
    cases hpre : prefixes ops false
        (firstOcc ((parts o (uncombined o ni vidx) ni vidx ops.undef).map Part.nm)) with
    | error x => rfl
    | ok ps =>
      dsimp only
      have hnum : o.fts.len + (stateOf (parts o (uncombined o ni vidx) ni vidx ops.undef)).uniqueNames.length
          * valueIds.length - (1 + valueIds.length)
          = (o.fts.len - (1 + vidx.length)) +
            (firstOcc ((parts o (uncombined o ni vidx) ni vidx ops.undef).map Part.nm)).length
              * vidx.length := by
        rw [← hlen]
        show _ + (firstOcc _).length * _ - _ = _
        omega
      rw [hnum, ← hlen]
      have hfill := fillAll_eq ops ni vidx.length _ _ f1 f2 (show ni ≤ o.fts.len - (1 + vidx.length) by omega)
      change (match fillAll ops ni vidx.length _ (firstOcc _) _ with
        | .error e => _ | .ok st => _) = _
      rw [hfill]
      dsimp only
      rw [expandedNames_eq hvn]
      dsimp only
      have hk : (stateOf (parts o (uncombined o ni vidx) ni vidx ops.undef)).unique.length
          = (firstOcc ((parts o (uncombined o ni vidx) ni vidx ops.undef).map Part.key)).length := by
        simp [stateOf]
      rw [hk, f3]
      rfl
  · rw [if_neg hp, if_neg hp]

/-- `combineByExpandingFeatures` gives the documented table: a point per combination of retained
values, each value of the features with values at its point and name, missing values elsewhere; the
combined points have the name of the first point combined, the new features are named after the
values of the feature with names. -/
theorem C36_combine {o r : Obj V} (h : o.WF) (ops : CollapseOps V) {namesId : Ident}
    {valueIds : List Ident} {ni : Nat} {vidx : List Nat} {vnames : List String}
    (hn : o.fts.getIndex namesId = .ok (ni : Int)) (hv : resolveIdents o.fts valueIds = .ok vidx)
    (hd : (ni :: vidx).Nodup) (hpos : ni + 1 + vidx.length ≤ o.fts.len) (hne : valueIds ≠ [])
    (hvn : ValueNames valueIds vnames)
    (hr : combineByExpanding ops o namesId valueIds false = (r, .ok ())) :
    let T := parts o (uncombined o ni vidx) ni vidx ops.undef
    (T.map (fun t => (t.key, t.nm))).Nodup ∧
    r.data = expandedTable ops.nan ni vidx.length T ∧ r.pts.getNames = firstNames T ∧
    r.fts.getNames = allLabels o ni vidx (newLabels ((firstOcc (T.map Part.nm)).map ops.str) vnames) ∧
    r.pts.Ok ∧ r.fts.Ok := by
  intro T
  rw [combine_unfold h ops hn hv hd hpos hvn] at hr
  dsimp only at hr
  have hlen := resolve_length h.fts hv
  by_cases hp : (T.map (fun t => (t.key, t.nm))).Nodup
  · rw [if_pos hp] at hr
    refine ⟨hp, ?_⟩
    cases hpre : prefixes ops false (firstOcc (T.map Part.nm)) with
    | error x => rw [hpre] at hr; cases hr
    | ok ps =>
      rw [hpre] at hr
      obtain ⟨e1, -⟩ := prefixes_ok.1 ps hpre
      subst e1
      dsimp only at hr
      split at hr
      · cases hr
      · rename_i fts hf
        have hu : ni ≤ (uncombined o ni vidx).length := by
          unfold uncombined
          rw [length_rest hd (by
            intro i hi
            rcases List.mem_cons.1 hi with rfl | hi
            · omega
            · exact resolveIdents_bound h.fts hv i hi), List.length_cons]
          omega
        have hvl : vnames.length = vidx.length := by rw [hvn.1, hlen]
        have hvp : 0 < vnames.length := by
          rw [hvn.1]; exact List.length_pos_iff.2 hne
        obtain ⟨g1, g2, g3⟩ := (finalFeatureNames_spec (by
          rw [length_newLabels hvp, List.length_map, hvl]) hu).1 fts hf
        cases hT : o.pts.tbl with
        | none =>
          rw [hT] at hr
          simp only [Prod.mk.injEq, and_true] at hr
          subst hr
          refine ⟨rfl, ?_, g3, none_ok _, g1⟩
          have hall : ∀ x ∈ firstNames T, x = none := by
            intro x hx
            have := (firstNames_sublist T).subset hx
            rw [parts_pname h] at this
            simp only [AxisSt.getNames, hT] at this
            exact (List.mem_replicate.1 this).2
          show List.replicate _ none = _
          rw [List.eq_replicate_iff.2 ⟨length_firstNames T, hall⟩]
        | some t =>
          rw [hT] at hr
          dsimp only at hr
          split at hr
          · cases hr
          · rename_i pts hpn
            simp only [Prod.mk.injEq, and_true] at hr
            subst hr
            obtain ⟨-, -, e3, e4⟩ := setNames_list_ok hpn
            refine ⟨rfl, ?_, g3, e4, g1⟩
            show pts.getNames = _
            rw [e3]; rfl
  · rw [if_neg hp] at hr
    cases hr

/-- Two points with the same retained values and the same name are refused, and the object is
unchanged. -/
theorem C36_combine_conflict_refused {o : Obj V} (h : o.WF) (ops : CollapseOps V) {namesId : Ident}
    {valueIds : List Ident} {ni : Nat} {vidx : List Nat} {vnames : List String}
    (hn : o.fts.getIndex namesId = .ok (ni : Int)) (hv : resolveIdents o.fts valueIds = .ok vidx)
    (hd : (ni :: vidx).Nodup) (hpos : ni + 1 + vidx.length ≤ o.fts.len)
    (hvn : ValueNames valueIds vnames)
    (hc : ¬ ((parts o (uncombined o ni vidx) ni vidx ops.undef).map (fun t => (t.key, t.nm))).Nodup) :
    combineByExpanding ops o namesId valueIds false = (o, .error .ImproperObjectAction) := by
  rw [combine_unfold h ops hn hv hd hpos hvn]
  dsimp only
  rw [if_neg hc]

/-- The call succeeds when no two points agree on the retained values and the name, the names print
differently and the resulting feature names are distinct. -/
theorem C36_combine_accepted {o : Obj V} (h : o.WF) (ops : CollapseOps V) {namesId : Ident}
    {valueIds : List Ident} {ni : Nat} {vidx : List Nat} {vnames : List String}
    (hn : o.fts.getIndex namesId = .ok (ni : Int)) (hv : resolveIdents o.fts valueIds = .ok vidx)
    (hd : (ni :: vidx).Nodup) (hpos : ni + 1 + vidx.length ≤ o.fts.len) (hne : valueIds ≠ [])
    (hvn : ValueNames valueIds vnames)
    (hc : ((parts o (uncombined o ni vidx) ni vidx ops.undef).map (fun t => (t.key, t.nm))).Nodup)
    (hs : ((firstOcc ((parts o (uncombined o ni vidx) ni vidx ops.undef).map Part.nm)).map ops.str).Nodup)
    (hl : (allLabels o ni vidx (newLabels ((firstOcc ((parts o (uncombined o ni vidx) ni vidx
      ops.undef).map Part.nm)).map ops.str) vnames)).reduceOption.Nodup) :
    ∃ r, combineByExpanding ops o namesId valueIds false = (r, .ok ()) := by
  rw [combine_unfold h ops hn hv hd hpos hvn]
  dsimp only
  rw [if_pos hc, prefixes_ok.2 hs]
  dsimp only
  have hlen := resolve_length h.fts hv
  have hu : ni ≤ (uncombined o ni vidx).length := by
    unfold uncombined
    rw [length_rest hd (by
      intro i hi
      rcases List.mem_cons.1 hi with rfl | hi
      · omega
      · exact resolveIdents_bound h.fts hv i hi), List.length_cons]
    omega
  have hvl : vnames.length = vidx.length := by rw [hvn.1, hlen]
  have hvp : 0 < vnames.length := by rw [hvn.1]; exact List.length_pos_iff.2 hne
  obtain ⟨fts, hf⟩ := (finalFeatureNames_spec (old := o.fts) (n := (uncombined o ni vidx).length +
    (firstOcc ((parts o (uncombined o ni vidx) ni vidx ops.undef).map Part.nm)).length * vidx.length) (by
      rw [length_newLabels hvp, List.length_map, hvl]) hu).2 hl
  rw [hf]
  dsimp only
  cases hT : o.pts.tbl with
  | none => exact ⟨_, rfl⟩
  | some t =>
    dsimp only
    rw [setNames_list_eq, if_pos]
    · exact ⟨_, rfl⟩
    · refine ⟨length_firstNames _, ?_⟩
      have := reduceOption_sublist (firstNames_sublist (parts o (uncombined o ni vidx) ni vidx ops.undef))
      rw [parts_pname h] at this
      exact (getNames_nodup h.pts).sublist this

end Collapse
end Nimble
