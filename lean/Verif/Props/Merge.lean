import Verif.Lemmas.MergeNames
import Verif.Props.Flatten

/-!
# C19: `merge` is the documented join
-/

namespace Nimble

/-! ## Specification -/

section Spec
variable {V : Type} [DecidableEq V]

/-- The element of an object at optional indices. -/
def elemAt (o : Obj V) (i j : Option Nat) : Option V := i.bind (fun i => j.bind (fun j => o.elem? i j))

/-- Some point of the left object and a point of the right object which goes with it have different
values, neither missing, for a feature of the same name. -/
def Conflict (nan : V) (L R : Obj V) (mates : Nat → List Nat) : Prop :=
  ∃ i j a b x y, i < L.pts.len ∧ j ∈ mates i ∧ b ∈ nameMates L.fts.getNames R.fts.getNames a ∧
    L.elem? i a = some x ∧ R.elem? j b = some y ∧ x ≠ nan ∧ y ≠ nan ∧ x ≠ y

/-- The names were created in the order of their indices, as they are by `setNames` with a list
(`setNames_inOrder`). -/
def NamesInOrder (a : AxisSt) : Prop :=
  ∀ t, a.tbl = some t → (t.names.map Prod.snd).Pairwise (· < ·)

/-- `r` is the join of `L` and `R` with the points `P` and the features `F`. -/
structure Merged (nan : V) (L R : Obj V) (P F : List (Option Nat × Option Nat)) (r : Obj V) : Prop where
  wf : r.WF
  nP : r.pts.len = P.length
  nF : r.fts.len = F.length
  elem : ∀ a b p q, P[a]? = some p → F[b]? = some q →
    r.elem? a b = some (pickCell nan (elemAt L p.1 q.1) (elemAt R p.2 q.2))
  ftNames : r.fts.getNames = F.map (nameOfPair L.fts.getNames R.fts.getNames)

/-- The points of the join on point names. -/
def joinPts (mode : MergeMode) (L R : Obj V) : List (Option Nat × Option Nat) :=
  joined mode L.pts.len R.pts.len (nameMates L.pts.getNames R.pts.getNames)

/-- The features of the join. -/
def joinFts (mode : MergeMode) (L R : Obj V) : List (Option Nat × Option Nat) :=
  joined mode L.fts.len R.fts.len (nameMates L.fts.getNames R.fts.getNames)

end Spec

theorem setNames_inOrder {a a' : AxisSt} {l : List (Option String)}
    (h : a.setNames (.list l) = .ok a') : NamesInOrder a' := by
  rw [setNames_list_eq] at h
  split at h
  · cases h
    intro t ht
    cases ht
    have key : ∀ (l : List (Option String)) (i : Nat),
        ((namedPairs i l).map Prod.snd).Pairwise (· < ·) := by
      intro l
      induction l with
      | nil => intro i; exact List.Pairwise.nil
      | cons x l ih =>
        intro i
        cases x with
        | none => exact ih (i + 1)
        | some s =>
          simp only [namedPairs, List.map_cons, List.pairwise_cons]
          refine ⟨?_, ih (i + 1)⟩
          intro k hk
          obtain ⟨p, hp, rfl⟩ := List.mem_map.1 hk
          obtain ⟨s', k'⟩ := p
          have := (mem_namedPairs.1 hp).1
          dsimp only
          omega
    exact key l 0
  · cases h

/-! ## The prepared rows -/

section
variable {V : Type} [DecidableEq V]

def sliceL (feature : MergeMode) (mL : List Nat) (l : List V) : List V :=
  match feature with
  | .intersection => keepIdx l mL
  | _ => l

def sliceR (feature : MergeMode) (mR : List Nat) (r : List V) : List V :=
  match feature with
  | .union => r
  | _ => pick r mR

def matchL (feature : MergeMode) (mL : List Nat) : List Nat :=
  match feature with
  | .intersection => List.range mL.length
  | _ => mL

def matchR (feature : MergeMode) (mR : List Nat) : List Nat :=
  match feature with
  | .union => mR
  | _ => List.range mR.length

def widthL (feature : MergeMode) (n : Nat) (mL : List Nat) : Nat :=
  match feature with
  | .intersection => mL.length
  | _ => n

def widthR (feature : MergeMode) (w : Nat) (mR : List Nat) : Nat :=
  match feature with
  | .union => w
  | _ => mR.length

theorem prepNames_eq (m : MergeVals V) (lN rN : List (Option String)) (feature : MergeMode)
    (left right : List (List V)) {mL mR : List Nat} (hl : mL.length = mR.length) :
    prepNames m lN rN feature left right mL mR =
      ⟨withKeys m lN 0 (left.map (sliceL feature mL)),
       withKeys m rN left.length (right.map (sliceR feature mR)),
       0 :: (matchL feature mL).map (· + 1), 0 :: (matchR feature mR).map (· + 1), 0, 0⟩ := by
  have hid : left.map (fun l : List V => l) = left := List.map_id' left
  have hid' : right.map (fun l : List V => l) = right := List.map_id' right
  cases feature with
  | left =>
    have h1 : left.map (sliceL .left mL) = left := hid
    simp only [prepNames, matchL, matchR, List.range_succ_eq_map, h1]
    rfl
  | union =>
    have h1 : left.map (sliceL .union mL) = left := hid
    have h2 : right.map (sliceR .union mR) = right := hid'
    simp only [prepNames, matchL, matchR, h1, h2]
  | intersection =>
    simp only [prepNames, sliceL, sliceR, matchL, matchR, List.range_succ_eq_map, hl]
    rfl

theorem ascending_of {L R : List (Option String)} {mL mR : List Nat} (h : Matching L R mL mR)
    (hp : mL.Pairwise (· < ·)) :
    mL = (List.range L.length).filter (fun i => decide (i ∈ mL)) := by
  apply List.Perm.eq_of_pairwise (le := (· < ·)) (fun a b _ _ h1 h2 => by omega) hp
  · exact List.Pairwise.filter _ List.pairwise_lt_range
  · rw [List.perm_ext_iff_of_nodup h.nodupL (List.nodup_range.filter _)]
    intro i
    simp only [List.mem_filter, List.mem_range, decide_eq_true_eq]
    exact ⟨fun hi => ⟨h.ltL hi, hi⟩, fun hi => hi.2⟩

theorem pairwise_idxOfNames {a b : AxisSt} (ha : a.Ok) {ta tb : NameTable}
    (hta : a.tbl = some ta) (htb : b.tbl = some tb) (ho : NamesInOrder a) :
    (idxOfNames a (matchingNames a b)).Pairwise (· < ·) := by
  have hs : (idxOfNames a (matchingNames a b)).Sublist (ta.names.map Prod.snd) := by
    have hk : ta.names.map Prod.snd = ta.names.keys.map (fun s => (PyDict.get? ta.names s).getD 0) := by
      unfold PyDict.keys
      rw [List.map_map]
      apply List.map_congr_left
      intro p hp
      have := PyDict.get?_of_mem (ha ta hta).nodup (k := p.1) (v := p.2) hp
      simp [this]
    rw [hk, lookup_pick hta (fun s hs => by
      rw [matchingNames_eq hta htb] at hs
      exact (List.mem_filter.1 hs).1), matchingNames_eq hta htb]
    exact List.filter_sublist.map _
  exact (ho ta hta).sublist hs

/-- What the later steps need about the prepared rows. -/
structure Sliced (L R : List (Option String)) (mL mR : List Nat) (feature : MergeMode) : Prop where
  len : (matchL feature mL).length = (matchR feature mR).length
  nodupL : (matchL feature mL).Nodup
  nodupR : (matchR feature mR).Nodup
  ltR : ∀ j ∈ matchR feature mR, j < widthR feature R.length mR

theorem sliced_of {L R : List (Option String)} {mL mR : List Nat} (h : Matching L R mL mR)
    (feature : MergeMode) : Sliced L R mL mR feature := by
  cases feature with
  | left =>
    exact ⟨by simp [matchL, matchR, h.len], h.nodupL, List.nodup_range, by simp [matchR, widthR]⟩
  | union => exact ⟨h.len, h.nodupL, h.nodupR, fun j hj => h.ltR hj⟩
  | intersection =>
    exact ⟨by simp [matchL, matchR, h.len], List.nodup_range, List.nodup_range,
      by simp [matchR, widthR]⟩

section
variable {L R : List (Option String)} {mL mR : List Nat}

theorem keepIdx_eq {l : List V} (h : Matching L R mL mR) (hl : l.length = L.length)
    (hasc : mL = (List.range L.length).filter (fun i => decide (i ∈ mL))) :
    keepIdx l mL = pick l mL := by
  unfold keepIdx
  rw [hl, ← hasc]

theorem length_sliceL (h : Matching L R mL mR) (feature : MergeMode)
    (hasc : feature = .intersection → mL = (List.range L.length).filter (fun i => decide (i ∈ mL)))
    {l : List V} (hl : l.length = L.length) :
    (sliceL feature mL l).length = widthL feature L.length mL := by
  cases feature with
  | left => exact hl
  | union => exact hl
  | intersection =>
    simp only [sliceL, widthL]
    rw [keepIdx_eq h hl (hasc rfl), length_pick (fun i hi => by rw [hl]; exact h.ltL hi)]

theorem length_sliceR (h : Matching L R mL mR) (feature : MergeMode)
    {r : List V} (hr : r.length = R.length) :
    (sliceR feature mR r).length = widthR feature R.length mR := by
  have hp : (pick r mR).length = mR.length := length_pick (fun i hi => by rw [hr]; exact h.ltR hi)
  cases feature with
  | left => exact hp
  | union => exact hr
  | intersection => exact hp

theorem outRow_slices (h : Matching L R mL mR) (feature : MergeMode) (nan : V)
    (hasc : feature = .intersection → mL = (List.range L.length).filter (fun i => decide (i ∈ mL)))
    (l r : Option (List V)) (hl : ∀ q, l = some q → q.length = L.length)
    (hr : ∀ q, r = some q → q.length = R.length) :
    outRow nan (colsOf (widthL feature L.length mL) (matchL feature mL) (matchR feature mR)
        (widthR feature R.length mR)) (l.map (sliceL feature mL)) (r.map (sliceR feature mR))
      = outRow nan (joined feature L.length R.length (nameMates L R)) l r := by
  cases feature with
  | union =>
    rw [h.joined_union]
    have h1 : l.map (sliceL .union mL) = l := by cases l <;> rfl
    have h2 : r.map (sliceR .union mR) = r := by cases r <;> rfl
    rw [h1, h2]
    rfl
  | left =>
    rw [← h.outRow_left nan l r hr]
    have h1 : l.map (sliceL .left mL) = l := by cases l <;> rfl
    rw [h1]
    rfl
  | intersection =>
    rw [← h.outRow_intersection nan l r (hasc rfl) hl hr]
    have h1 : l.map (sliceL .intersection mL) = l.map (fun q => pick q mL) := by
      cases l with
      | none => rfl
      | some q => exact congrArg some (keepIdx_eq h (hl q rfl) (hasc rfl))
    rw [h1]
    simp only [matchL, matchR, widthL, widthR, ← h.len]
    rfl

theorem agree_slices (h : Matching L R mL mR) (feature : MergeMode) (nan : V)
    (hasc : feature = .intersection → mL = (List.range L.length).filter (fun i => decide (i ∈ mL)))
    {l r : List V} (hl : l.length = L.length) (hr : r.length = R.length) :
    (∀ p ∈ (matchL feature mL).zip (matchR feature mR),
        Agree nan (rowCell nan (sliceL feature mL l) p.1) (rowCell nan (sliceR feature mR r) p.2)) ↔
      ∀ p ∈ mL.zip mR, Agree nan (rowCell nan l p.1) (rowCell nan r p.2) := by
  have hpR : ∀ (k : Nat) (hk : k < mR.length), rowCell nan (pick r mR) k = rowCell nan r mR[k] := by
    intro k hk
    rw [rowCell_eq, rowCell_eq, getElem?_pick (fun j hj => by rw [hr]; exact h.ltR hj),
      List.getElem?_eq_getElem hk]
    rfl
  have hpL : ∀ (k : Nat) (hk : k < mL.length), rowCell nan (pick l mL) k = rowCell nan l mL[k] := by
    intro k hk
    rw [rowCell_eq, rowCell_eq, getElem?_pick (fun j hj => by rw [hl]; exact h.ltL hj),
      List.getElem?_eq_getElem hk]
    rfl
  have hlen := h.len
  have base : ∀ (X : List Nat) (Y : List Nat) (hX : X.length = mL.length) (hY : Y.length = mL.length)
      (l' r' : List V)
      (h1 : ∀ (k : Nat) (hk : k < mL.length), rowCell nan l' (X[k]'(by omega)) = rowCell nan l mL[k])
      (h2 : ∀ (k : Nat) (hk : k < mL.length), rowCell nan r' (Y[k]'(by omega))
        = rowCell nan r (mR[k]'(by omega))),
      (∀ p ∈ X.zip Y, Agree nan (rowCell nan l' p.1) (rowCell nan r' p.2)) ↔
        ∀ p ∈ mL.zip mR, Agree nan (rowCell nan l p.1) (rowCell nan r p.2) := by
    intro X Y hX hY l' r' h1 h2
    constructor
    · intro hh p hp
      obtain ⟨k, hk, rfl⟩ := List.getElem_of_mem hp
      have hk' : k < mL.length := by rw [List.length_zip] at hk; omega
      have hk2 : k < (X.zip Y).length := by rw [List.length_zip]; omega
      have := hh (X.zip Y)[k] (List.getElem_mem hk2)
      simp only [List.getElem_zip] at this ⊢
      rw [h1 k hk', h2 k hk'] at this
      exact this
    · intro hh p hp
      obtain ⟨k, hk, rfl⟩ := List.getElem_of_mem hp
      have hk' : k < mL.length := by rw [List.length_zip] at hk; omega
      have hk2 : k < (mL.zip mR).length := by rw [List.length_zip]; omega
      have := hh (mL.zip mR)[k] (List.getElem_mem hk2)
      simp only [List.getElem_zip] at this ⊢
      rw [h1 k hk', h2 k hk']
      exact this
  cases feature with
  | union => exact Iff.rfl
  | left =>
    apply base mL (List.range mR.length) rfl (by simp [h.len]) l (pick r mR) (fun _ _ => rfl)
    intro k hk
    simp only [List.getElem_range]
    exact hpR k (by omega)
  | intersection =>
    simp only [sliceL, keepIdx_eq h hl (hasc rfl)]
    refine base (List.range mL.length) (List.range mR.length) (by simp) (by simp [h.len])
      (pick l mL) (pick r mR) ?_ ?_
    · intro k hk
      simp only [List.getElem_range]
      exact hpL k hk
    · intro k hk
      simp only [List.getElem_range]
      exact hpR k (by omega)

end

/-! ## Keys -/

theorem length_withKeys (m : MergeVals V) (names : List (Option String)) (add : Nat)
    (rows : List (List V)) : (withKeys m names add rows).length = rows.length := by
  simp [withKeys]

theorem getElem?_withKeys (m : MergeVals V) (names : List (Option String)) (add : Nat)
    (rows : List (List V)) (i : Nat) :
    (withKeys m names add rows)[i]? = (rows[i]?).map (ptKey m names add i :: ·) := by
  simp only [withKeys, List.getElem?_map, List.getElem?_zipIdx, Option.map_map]
  cases rows[i]? <;> simp

theorem getD_withKeys (m : MergeVals V) (names : List (Option String)) (add : Nat)
    {rows : List (List V)} {i : Nat} (hi : i < rows.length) :
    (withKeys m names add rows).getD i [] = ptKey m names add i :: rows.getD i [] := by
  rw [List.getD_eq_getElem?_getD, getElem?_withKeys, getD_eq_some (d := []) hi]
  rfl

theorem ptKey_eq_iff (m : MergeVals V) {lN rN : List (Option String)} {n i j : Nat} (hi : i < n)
    (hl : lN.length = n) (hj : j < rN.length) :
    pyEqv m.nan (ptKey m rN n j) (ptKey m lN 0 i) = true ↔
      ((lN[i]?).join ≠ none ∧ lN[i]? = rN[j]?) := by
  have hi' : i < lN.length := by omega
  unfold pyEqv
  rw [decide_eq_true_eq]
  unfold ptKey
  rw [List.getElem?_eq_getElem hi', List.getElem?_eq_getElem hj]
  simp only [Option.join_some]
  cases lN[i] with
  | none =>
    cases rN[j] with
    | none =>
      simp only [ne_eq, not_true_eq_false, false_and, iff_false, not_and]
      intro e
      have := m.ofIdx_inj _ _ e
      omega
    | some t =>
      simp only [ne_eq, not_true_eq_false, false_and, iff_false, not_and]
      intro e
      exact absurd e (m.ofName_ne_ofIdx _ _)
  | some s =>
    cases rN[j] with
    | none =>
      simp only [Option.some.injEq, reduceCtorEq, and_false, iff_false, not_and]
      intro e
      exact absurd e.symm (m.ofName_ne_ofIdx _ _)
    | some t =>
      simp only [ne_eq, reduceCtorEq, not_false_eq_true, Option.some.injEq, true_and]
      constructor
      · rintro ⟨e, _⟩; exact (m.ofName_inj _ _ e).symm
      · rintro rfl; exact ⟨rfl, m.ofName_ne_nan s⟩

theorem matesIdx_names (m : MergeVals V) {lN rN : List (Option String)}
    {left right : List (List V)} (hl : lN.length = left.length) (hr : rN.length = right.length)
    {i : Nat} (hi : i < left.length) :
    matesIdx m.nan 0 0 (withKeys m lN 0 left) (withKeys m rN left.length right) i
      = nameMates lN rN i := by
  unfold matesIdx nameMates
  rw [length_withKeys, hr]
  apply List.filter_congr
  intro j hj
  have hj : j < right.length := by simpa using hj
  rw [getD_withKeys m _ _ hj, getD_withKeys m _ _ hi]
  have := ptKey_eq_iff m (lN := lN) (rN := rN) hi hl (by omega : j < rN.length)
  simp only [rowCell, List.getD_cons_zero]
  by_cases hc : (lN[i]?).join ≠ none ∧ lN[i]? = rN[j]?
  · rw [this.2 hc, decide_eq_true hc]
  · have h2 : pyEqv m.nan (ptKey m rN left.length j) (ptKey m lN 0 i) = false := by
      cases hh : pyEqv m.nan (ptKey m rN left.length j) (ptKey m lN 0 i) with
      | false => rfl
      | true => exact absurd (this.1 hh) hc
    rw [h2]; simp only [hc, decide_false]


/-! ## Conflicts and the result -/

theorem zip_mem_iff {L R : List (Option String)} {mL mR : List Nat} (h : Matching L R mL mR)
    (a b : Nat) : (a, b) ∈ mL.zip mR ↔ b ∈ nameMates L R a := by
  rw [h.mem, ← h.mate_iff, h.nameMates_eq]
  simp

theorem elem?_rowCell {o : Obj V} (ho : o.WF) (nan : V) {i a : Nat} (hi : i < o.pts.len)
    (ha : a < o.fts.len) : o.elem? i a = some (rowCell nan (o.data.getD i []) a) := by
  have hi' : i < o.data.length := by rw [ho.rows]; exact hi
  unfold Obj.elem?
  rw [getD_eq_some (d := []) hi']
  simp only [Option.bind_some]
  exact rowCell_lt (by rw [ho.cols _ (getD_mem hi')]; exact ha)

theorem not_conflict_iff {L R : Obj V} (hL : L.WF) (hR : R.WF) (nan : V) {mL mR : List Nat}
    (h : Matching L.fts.getNames R.fts.getNames mL mR) {mates : Nat → List Nat}
    (hm : ∀ i, i < L.pts.len → ∀ j ∈ mates i, j < R.pts.len) :
    (∀ i, i < L.pts.len → ∀ j ∈ mates i, ∀ p ∈ mL.zip mR,
        Agree nan (rowCell nan (L.data.getD i []) p.1) (rowCell nan (R.data.getD j []) p.2)) ↔
      ¬ Conflict nan L R mates := by
  have hlL := hL.fts.length_getNames
  have hlR := hR.fts.length_getNames
  constructor
  · rintro hh ⟨i, j, a, b, x, y, hi, hj, hb, hx, hy, hxn, hyn, hxy⟩
    have hp := (zip_mem_iff h a b).2 hb
    have := hh i hi j hj (a, b) hp
    have ha : a < L.fts.len := by rw [← hlL]; exact h.ltL (List.of_mem_zip hp).1
    have hb' : b < R.fts.len := by rw [← hlR]; exact h.ltR (List.of_mem_zip hp).2
    rw [elem?_rowCell hL nan hi ha] at hx
    rw [elem?_rowCell hR nan (hm i hi j hj) hb'] at hy
    cases hx; cases hy
    rcases this with h1 | h1 | h1
    · exact hxy h1
    · exact hxn h1
    · exact hyn h1
  · intro hh i hi j hj p hp
    obtain ⟨a, b⟩ := p
    have ha : a < L.fts.len := by rw [← hlL]; exact h.ltL (List.of_mem_zip hp).1
    have hb' : b < R.fts.len := by rw [← hlR]; exact h.ltR (List.of_mem_zip hp).2
    by_contra hc
    apply hh
    refine ⟨i, j, a, b, _, _, hi, hj, (zip_mem_iff h a b).1 hp, elem?_rowCell hL nan hi ha,
      elem?_rowCell hR nan (hm i hi j hj) hb', ?_, ?_, ?_⟩
    · intro e; exact hc (Or.inr (Or.inl e))
    · intro e; exact hc (Or.inr (Or.inr e))
    · intro e; exact hc (Or.inl e)

theorem cellOf_elemAt (o : Obj V) (i j : Option Nat) :
    cellOf (i.bind (o.data[·]?)) j = elemAt o i j := by
  cases i with
  | none => rfl
  | some i =>
    cases j with
    | none =>
      simp only [Option.bind_some, cellOf, elemAt, Option.bind_none]
      cases o.data[i]? <;> rfl
    | some j => rfl

/-- The data of the join. -/
def joinData (nan : V) (L R : Obj V) (P F : List (Option Nat × Option Nat)) : List (List V) :=
  P.map (fun p => outRow nan F (p.1.bind (L.data[·]?)) (p.2.bind (R.data[·]?)))

theorem merged_of {nan : V} {L R : Obj V} {P F : List (Option Nat × Option Nat)} {pts fts : AxisSt}
    (hp : pts.Ok) (hf : fts.Ok) (hpl : pts.len = P.length) (hfl : fts.len = F.length)
    (hfn : fts.getNames = F.map (nameOfPair L.fts.getNames R.fts.getNames)) :
    Merged nan L R P F ⟨joinData nan L R P F, pts, fts⟩ := by
  refine ⟨⟨by simp [joinData, hpl], ?_, hp, hf⟩, hpl, hfl, ?_, hfn⟩
  · intro r hr
    obtain ⟨p, _, rfl⟩ := List.mem_map.1 hr
    simp [outRow, hfl]
  · intro a b p q ha hb
    simp only [Obj.elem?, joinData, List.getElem?_map, ha, Option.map_some, Option.bind_some, outRow,
      hb, cellOf_elemAt]

theorem matchingNames_mem {a b : AxisSt} (ha : a.Ok) (hb : b.Ok) {ta tb : NameTable}
    (hta : a.tbl = some ta) (htb : b.tbl = some tb) (s : String) :
    s ∈ matchingNames a b ↔ some s ∈ a.getNames ∧ some s ∈ b.getNames := by
  have ha := ha ta hta
  have hb := hb tb htb
  rw [matchingNames_eq hta htb, List.mem_filter, PyDict.has_iff, PyDict.mem_keys, PyDict.mem_keys,
    AxisSt.getNames_of_some hta, AxisSt.getNames_of_some htb, Option.isSome_iff_exists,
    Option.isSome_iff_exists, List.mem_iff_getElem?, List.mem_iff_getElem?]
  simp only [ha.iff, hb.iff]

theorem mem_left_iff {L R : List (Option String)} {mL mR : List Nat} (h : Matching L R mL mR)
    {i : Nat} {x : Option String} (hx : L[i]? = some x) : i ∈ mL ↔ x ≠ none ∧ x ∈ R := by
  rw [h.mem_left]
  constructor
  · rintro ⟨j, hj⟩
    obtain ⟨s, h1, h2⟩ := (h.mate_iff i j).1 hj
    rw [hx] at h1
    cases h1
    exact ⟨by simp, List.mem_of_getElem? h2⟩
  · rintro ⟨h1, h2⟩
    obtain ⟨s, rfl⟩ := Option.ne_none_iff_exists'.1 h1
    obtain ⟨j, hj⟩ := List.mem_iff_getElem?.1 h2
    exact ⟨j, (h.mate_iff i j).2 ⟨s, hx, hj⟩⟩

theorem mem_right_iff {L R : List (Option String)} {mL mR : List Nat} (h : Matching L R mL mR)
    {j : Nat} {x : Option String} (hx : R[j]? = some x) : j ∈ mR ↔ x ≠ none ∧ x ∈ L := by
  rw [h.mem_right]
  constructor
  · rintro ⟨i, hi⟩
    obtain ⟨s, h1, h2⟩ := (h.mate_iff i j).1 hi
    rw [hx] at h2
    cases h2
    exact ⟨by simp, List.mem_of_getElem? h1⟩
  · rintro ⟨h1, h2⟩
    obtain ⟨s, rfl⟩ := Option.ne_none_iff_exists'.1 h1
    obtain ⟨i, hi⟩ := List.mem_iff_getElem?.1 h2
    exact ⟨i, (h.mate_iff i j).2 ⟨s, hi, hx⟩⟩

theorem reduceOption_union_nodup {L R : List (Option String)} (hL : L.reduceOption.Nodup)
    (hR : R.reduceOption.Nodup) {f : Option String → Bool}
    (hf : ∀ s, some s ∈ R → f (some s) = true → some s ∉ L) :
    (L ++ R.filter f).reduceOption.Nodup := by
  rw [List.reduceOption_append, List.nodup_append]
  refine ⟨hL, ?_, ?_⟩
  · exact (List.Sublist.filterMap id (List.filter_sublist (p := f) (l := R))).nodup hR
  · intro a ha b hb e
    subst e
    rw [List.reduceOption_mem_iff] at ha hb
    rw [List.mem_filter] at hb
    exact hf a hb.1 hb.2 ha

theorem reduceOption_filter_nodup {L : List (Option String)} (hL : L.reduceOption.Nodup)
    (f : Option String → Bool) : (L.filter f).reduceOption.Nodup :=
  (List.Sublist.filterMap id (List.filter_sublist (p := f) (l := L))).nodup hL

theorem ftNames_ok {L R : Obj V} (hL : L.WF) (hR : R.WF) {tl tr : NameTable}
    (htl : L.fts.tbl = some tl) (htr : R.fts.tbl = some tr) (feature : MergeMode) (l : List (Option String))
    (hl : L.mergedFtNames R feature = some l) :
    l = (joinFts feature L R).map (nameOfPair L.fts.getNames R.fts.getNames) ∧ l.reduceOption.Nodup := by
  have hM := matching_of hL.fts hR.fts htl htr
  have hmm := matchingNames_mem hL.fts hR.fts htl htr
  have hnL := (hL.fts tl htl).reduceOption_nodup
  have hnR := (hR.fts tr htr).reduceOption_nodup
  rw [← AxisSt.getNames_of_some htl] at hnL
  rw [← AxisSt.getNames_of_some htr] at hnR
  unfold joinFts
  rw [← hL.fts.length_getNames, ← hR.fts.length_getNames]
  have hin : ∀ x, (x ∈ (matchingNames L.fts R.fts).map some ↔
      x ≠ none ∧ x ∈ L.fts.getNames ∧ x ∈ R.fts.getNames) := by
    intro x
    cases x with
    | none => simp
    | some s => simpa using hmm s
  cases feature with
  | left => cases hl
  | union =>
    cases hl
    refine ⟨?_, reduceOption_union_nodup hnL hnR ?_⟩
    · rw [hM.names_union]
      intro j x hx
      rw [mem_right_iff hM hx, decide_eq_true_eq, hin]
      have : x ∈ R.fts.getNames := List.mem_of_getElem? hx
      tauto
    · intro s hs hf hsL
      rw [decide_eq_true_eq, hin] at hf
      exact hf ⟨by simp, hsL, hs⟩
  | intersection =>
    cases hl
    refine ⟨?_, reduceOption_filter_nodup hnL _⟩
    rw [hM.names_intersection]
    intro i x hx
    rw [mem_left_iff hM hx, decide_eq_true_eq, hin]
    have : x ∈ L.fts.getNames := List.mem_of_getElem? hx
    tauto

theorem ptNames_ok {L R : Obj V} (hL : L.WF) (hR : R.WF) {tl tr : NameTable}
    (htl : L.pts.tbl = some tl) (htr : R.pts.tbl = some tr) (point : MergeMode) :
    L.mergedPtNames R point = (joinPts point L R).map (nameOfPair L.pts.getNames R.pts.getNames) ∧
      (L.mergedPtNames R point).reduceOption.Nodup := by
  have hM := matching_of hL.pts hR.pts htl htr
  have hnL := (hL.pts tl htl).reduceOption_nodup
  have hnR := (hR.pts tr htr).reduceOption_nodup
  rw [← AxisSt.getNames_of_some htl] at hnL
  rw [← AxisSt.getNames_of_some htr] at hnR
  unfold joinPts
  rw [← hL.pts.length_getNames, ← hR.pts.length_getNames]
  cases point with
  | left => exact ⟨hM.names_left.symm, hnL⟩
  | union =>
    refine ⟨?_, reduceOption_union_nodup hnL hnR ?_⟩
    · rw [hM.names_union]
      · rfl
      intro j x hx
      rw [mem_right_iff hM hx, decide_eq_true_eq]
      tauto
    · intro s hs hf hsL
      rw [decide_eq_true_eq] at hf
      rcases hf with hf | hf
      · cases hf
      · exact hf hsL
  | intersection =>
    refine ⟨?_, reduceOption_filter_nodup hnL _⟩
    rw [hM.names_intersection]
    · rfl
    intro i x hx
    rw [mem_left_iff hM hx, decide_eq_true_eq]
    tauto

/-- The features after the names were set. -/
theorem fts_out {L R : Obj V} (hL : L.WF) (hR : R.WF) {tl tr : NameTable}
    (htl : L.fts.tbl = some tl) (htr : R.fts.tbl = some tr) (feature : MergeMode) :
    ∃ f : AxisSt, Obj.setIfSome ⟨(joinFts feature L R).length, L.fts.tbl⟩ (L.mergedFtNames R feature)
        = .ok f ∧
      f.Ok ∧ f.len = (joinFts feature L R).length ∧
      f.getNames = (joinFts feature L R).map (nameOfPair L.fts.getNames R.fts.getNames) := by
  cases hm : L.mergedFtNames R feature with
  | none =>
    have hfe : feature = .left := by
      cases feature with
      | left => rfl
      | union => cases hm
      | intersection => cases hm
    subst hfe
    have hM := matching_of hL.fts hR.fts htl htr
    have hlen : (joinFts .left L R).length = L.fts.len := by
      unfold joinFts
      rw [← hL.fts.length_getNames, ← hR.fts.length_getNames, hM.joined_left]
      simp
    have he : (⟨(joinFts .left L R).length, L.fts.tbl⟩ : AxisSt) = L.fts := by
      rw [hlen]
    refine ⟨_, rfl, ?_, rfl, ?_⟩
    · rw [he]; exact hL.fts
    · rw [he]
      unfold joinFts
      rw [← hL.fts.length_getNames, ← hR.fts.length_getNames, hM.names_left]
  | some l =>
    obtain ⟨h1, h2⟩ := ftNames_ok hL hR htl htr feature l hm
    have hll : l.length = (joinFts feature L R).length := by rw [h1]; simp
    have hset := setNames_list_eq ⟨(joinFts feature L R).length, L.fts.tbl⟩ l
    rw [if_pos ⟨hll, h2⟩] at hset
    exact ⟨_, hset, mk_ok hll h2, rfl, h1⟩

/-- The prepared width is the number of features of the join. -/
theorem width_join {L R : Obj V} (hL : L.WF) (hR : R.WF) (feature : MergeMode) {mL mR : List Nat}
    (hM : Matching L.fts.getNames R.fts.getNames mL mR)
    (hasc : feature = .intersection →
      mL = (List.range L.fts.getNames.length).filter (fun i => decide (i ∈ mL))) :
    widthL feature L.fts.len mL + (widthR feature R.fts.len mR - (matchR feature mR).length)
      = (joinFts feature L R).length := by
  unfold joinFts
  rw [← hL.fts.length_getNames, ← hR.fts.length_getNames]
  cases feature with
  | left =>
    rw [hM.joined_left]
    simp [widthL, widthR, matchR]
  | union =>
    rw [hM.joined_union]
    simp only [widthL, widthR, matchR, colsOf, List.length_append, List.length_map, List.length_range]
    rw [length_rest' hM.nodupR (fun j hj => hM.ltR hj)]
  | intersection =>
    rw [hM.joined_intersection, ← hasc rfl]
    simp [widthL, widthR, matchR]

theorem headD_length {l : List (List V)} {n : Nat} (h0 : l ≠ []) (h : ∀ r ∈ l, r.length = n) :
    (l.headD []).length = n := by
  cases l with
  | nil => exact absurd rfl h0
  | cons r l => exact h r (by simp)

end

end Nimble
