import Verif.Model.CollapseSparse
import Verif.Props.CollapseSplit
import Verif.Lemmas.MergeSparse

/-! # Lemmas about collapsing features of Sparse objects (C96) -/

namespace Nimble.Sp
variable {V : Type}

/-! ## Lists -/

theorem getElem?_flatMap_block {A B : Type} (f : A → List B) (k : Nat) (l : List A) (hf : ∀ x ∈ l, (f x).length = k)
    {p q : Nat} (hq : q < k) : (l.flatMap f)[p * k + q]? = (l[p]?).bind (fun x => (f x)[q]?) := by
  induction l generalizing p with
  | nil => simp
  | cons x l ih =>
    rw [List.flatMap_cons]
    cases p with
    | zero =>
      rw [List.getElem?_append_left (by rw [hf x (by simp)]; omega)]
      simp
    | succ p =>
      have hx := hf x (by simp)
      rw [List.getElem?_append_right (by rw [hx, Nat.succ_mul]; omega), hx]
      have : (p + 1) * k + q - k = p * k + q := by rw [Nat.succ_mul]; omega
      rw [this, ih (fun y hy => hf y (List.mem_cons_of_mem _ hy))]
      simp

theorem pick_range {A : Type} (l : List A) : pick l (List.range l.length) = l := by
  unfold pick
  induction l with
  | nil => rfl
  | cons x l ih =>
    rw [List.length_cons, List.range_succ_eq_map, List.filterMap_cons]
    simp only [List.getElem?_cons_zero, List.filterMap_map]
    congr 1

theorem pick_map {A B : Type} (f : A → B) (l : List A) (is : List Nat) : pick (l.map f) is = (pick l is).map f := by
  unfold pick
  induction is with
  | nil => rfl
  | cons i is ih =>
    rw [List.filterMap_cons, List.filterMap_cons, List.getElem?_map]
    cases l[i]? with
    | none => simpa using ih
    | some v =>
      simp only [Option.map_some, List.map_cons]
      rw [ih]

theorem mem_argsort {l : List Nat} {i : Nat} : i ∈ argsort l ↔ i < l.length := by
  unfold argsort
  rw [(List.perm_insertionSort _ _).mem_iff, List.mem_range]

theorem length_argsort (l : List Nat) : (argsort l).length = l.length := by
  unfold argsort
  rw [(List.perm_insertionSort _ _).length_eq, List.length_range]

/-- Increasing numbers are in order already. -/
theorem argsort_increasing {l : List Nat} (h : l.Pairwise (· < ·)) : argsort l = List.range l.length := by
  unfold argsort
  refine List.Pairwise.insertionSort_eq ?_
  refine List.Pairwise.imp_of_mem ?_ (List.pairwise_lt_range (n := l.length))
  intro a b ha hb hab
  rw [List.mem_range] at ha hb
  rw [List.getElem?_eq_getElem ha, List.getElem?_eq_getElem hb]
  exact Nat.le_of_lt (List.pairwise_iff_getElem.1 h a b ha hb hab)

theorem takeIdx_ok {l : List V} {is : List Nat} (h : ∀ i ∈ is, i < l.length) : takeIdx l is = .ok (pick l is) := by
  induction is with
  | nil => rfl
  | cons i is ih =>
    unfold takeIdx
    rw [List.getElem?_eq_getElem (h i (by simp)), ih (fun j hj => h j (List.mem_cons_of_mem _ hj))]
    simp [pick, List.getElem?_eq_getElem (h i (by simp)), bind, Except.bind, pure, Except.pure]

theorem takeIdx_error {l : List V} {is : List Nat} (h : ∃ i ∈ is, l.length ≤ i) : takeIdx l is = .error .IndexError := by
  induction is with
  | nil => obtain ⟨i, hi, _⟩ := h; cases hi
  | cons i is ih =>
    unfold takeIdx
    cases hi : l[i]? with
    | none => rfl
    | some v =>
      have : ∃ j ∈ is, l.length ≤ j := by
        obtain ⟨j, hj, hle⟩ := h
        rcases List.mem_cons.1 hj with rfl | hj
        · rw [List.getElem?_eq_none hle] at hi; cases hi
        · exact ⟨j, hj, hle⟩
      rw [ih this]
      rfl

/-! ## The stored values of a point -/

section
variable [Zero V] [DecidableEq V]

/-- The features of a selection in which a point is not zero, from left to right. -/
def nonzeroIn (c : Coo V) (pt : Nat) (idxs : List Nat) : List Nat :=
  (List.range c.cols).filter (fun j => decide (j ∈ idxs ∧ c.at pt j ≠ 0))

omit [DecidableEq V] in
theorem cols_increasing {c : Coo V} (h : c.WF) (hs : c.sorted = some .point) (pt : Nat) (idxs : List Nat) :
    ((c.ents.filter (fun e => decide (e.row = pt ∧ e.col ∈ idxs))).map Ent.col).Pairwise (· < ·) := by
  rw [List.pairwise_map]
  have h1 := (h.sorted_ok _ hs).filter (fun e => decide (e.row = pt ∧ e.col ∈ idxs))
  have h2 : (c.ents.filter (fun e => decide (e.row = pt ∧ e.col ∈ idxs))).Pairwise (fun a b => a.pos ≠ b.pos) :=
    (List.pairwise_map.1 h.nodup).filter _
  refine (h1.and h2).imp_of_mem ?_
  intro a b ha hb hab
  have ea := (of_decide_eq_true (List.mem_filter.1 ha).2).1
  have eb := (of_decide_eq_true (List.mem_filter.1 hb).2).1
  have hle := hab.1
  change (decide (a.row < b.row) || (decide (a.row = b.row) && decide (a.col ≤ b.col))) = true at hle
  simp only [Bool.or_eq_true, Bool.and_eq_true, decide_eq_true_eq] at hle
  have hne : a.col ≠ b.col := fun hc => hab.2 (Prod.ext (ea.trans eb.symm) hc)
  omega

theorem rowVals_eq {c : Coo V} (h : c.WF) (hs : c.sorted = some .point) (pt : Nat) (idxs : List Nat) :
    rowVals c.ents pt idxs = (nonzeroIn c pt idxs).map (c.at pt) := by
  have hinc := cols_increasing h hs pt idxs
  have hcols : (c.ents.filter (fun e => decide (e.row = pt ∧ e.col ∈ idxs))).map Ent.col = nonzeroIn c pt idxs := by
    have hinc2 : (nonzeroIn c pt idxs).Pairwise (· < ·) := (List.pairwise_lt_range).filter _
    refine List.Perm.eq_of_pairwise (le := (· < ·)) (fun a b _ _ h1 h2 => by omega) hinc hinc2 ?_
    refine (List.perm_ext_iff_of_nodup (hinc.imp (fun h => by omega)) (hinc2.imp (fun h => by omega))).2 ?_
    intro j
    simp only [nonzeroIn, List.mem_map, List.mem_filter, decide_eq_true_eq, List.mem_range]
    constructor
    · rintro ⟨e, ⟨he, rfl, hi⟩, rfl⟩
      refine ⟨h.col_lt e he, hi, ?_⟩
      rw [Coo.at_of_mem h.nodup he]
      exact h.nonzero e he
    · rintro ⟨_, hi, hne⟩
      exact ⟨⟨pt, j, c.at pt j⟩, ⟨(Coo.mem_iff_at h.toCore hne).2 rfl, rfl, hi⟩, rfl⟩
  unfold rowVals
  rw [← hcols, List.map_map]
  refine List.map_congr_left ?_
  intro e he
  obtain ⟨h1, h2⟩ := List.mem_filter.1 he
  have e1 := (of_decide_eq_true h2).1
  show e.val = c.at pt e.col
  rw [← e1]
  exact (Coo.at_of_mem h.nodup h1).symm
end

/-! ## The new entries -/

theorem mem_pointEnts {i w : Nat} {retain : List V} {nm v : V} {e : Ent V} :
    e ∈ pointEnts i w retain nm v ↔ e.row = i ∧
      (retain[e.col]? = some e.val ∨ (e.col = w ∧ e.val = nm) ∨ (e.col = w + 1 ∧ e.val = v)) := by
  obtain ⟨r, c, x⟩ := e
  unfold pointEnts
  simp only [List.mem_append, List.mem_map, Prod.exists, List.mk_mem_zipIdx_iff_getElem?, List.mem_cons,
    List.not_mem_nil, or_false, Ent.mk.injEq]
  constructor
  · rintro (⟨a, b, h, rfl, rfl, rfl⟩ | ⟨rfl, rfl, rfl⟩ | ⟨rfl, rfl, rfl⟩)
    · exact ⟨rfl, .inl h⟩
    · exact ⟨rfl, .inr (.inl ⟨rfl, rfl⟩)⟩
    · exact ⟨rfl, .inr (.inr ⟨rfl, rfl⟩)⟩
  · rintro ⟨rfl, h | ⟨rfl, rfl⟩ | ⟨rfl, rfl⟩⟩
    · exact .inl ⟨x, c, h, rfl, rfl, rfl⟩
    · exact .inr (.inl ⟨rfl, rfl, rfl⟩)
    · exact .inr (.inr ⟨rfl, rfl, rfl⟩)

theorem pointEnts_nodup {i w : Nat} {retain : List V} {nm v : V} (hw : retain.length ≤ w) :
    ((pointEnts i w retain nm v).map Ent.pos).Nodup := by
  have h1 : (pointEnts i w retain nm v).map Ent.pos =
      ((List.range retain.length) ++ [w, w + 1]).map (fun j => (i, j)) := by
    unfold pointEnts
    rw [List.map_append, List.map_append, List.map_map, List.range_eq_range', ← List.zipIdx_map_snd 0 retain,
      List.map_map]
    rfl
  rw [h1]
  refine List.Nodup.map (fun a b hab => congrArg Prod.snd hab) ?_
  rw [List.nodup_append]
  refine ⟨List.nodup_range, by simp, ?_⟩
  intro a ha b hb
  rw [List.mem_range] at ha
  simp only [List.mem_cons, List.not_mem_nil, or_false] at hb
  omega

theorem mem_splitEnts {pt k w : Nat} {retain names values : List V} {e : Ent V} :
    e ∈ splitEnts pt k w retain names values ↔ ∃ (q : Nat) (nm v : V), names[q]? = some nm ∧ values[q]? = some v ∧
      e ∈ pointEnts (pt * k + q) w retain nm v := by
  unfold splitEnts
  simp only [List.mem_flatMap, Prod.exists, List.mk_mem_zipIdx_iff_getElem?, List.getElem?_zip_eq_some]
  constructor
  · rintro ⟨a, b, q, ⟨h1, h2⟩, h3⟩; exact ⟨q, a, b, h1, h2, h3⟩
  · rintro ⟨q, a, b, h1, h2, h3⟩; exact ⟨a, b, q, ⟨h1, h2⟩, h3⟩

theorem splitEnts_nodup {pt k w : Nat} {retain names values : List V} (hw : retain.length ≤ w) :
    ((splitEnts pt k w retain names values).map Ent.pos).Nodup := by
  unfold splitEnts
  rw [List.map_flatMap, List.nodup_flatMap]
  constructor
  · intro p _; exact pointEnts_nodup hw
  · have hz : ((names.zip values).zipIdx.map Prod.snd).Nodup := by
      rw [List.zipIdx_map_snd]; exact List.nodup_range'
    refine (List.pairwise_map.1 hz).imp ?_
    intro a b hab
    rw [Function.onFun, List.disjoint_left]
    intro x hx hy
    obtain ⟨e, he, rfl⟩ := List.mem_map.1 hx
    obtain ⟨e', he', hh⟩ := List.mem_map.1 hy
    have h1 := (mem_pointEnts.1 he).1
    have h2 := (mem_pointEnts.1 he').1
    have : e'.row = e.row := congrArg Prod.fst hh
    exact hab (by omega)

/-- The entries written for all points, given the values of each. -/
def allEnts (n k w : Nat) (retain : Nat → List V) (names : List V) (values : Nat → List V) : List (Ent V) :=
  (List.range n).flatMap (fun pt => splitEnts pt k w (retain pt) names (values pt))

theorem mem_allEnts {n k w : Nat} {retain values : Nat → List V} {names : List V} {e : Ent V} :
    e ∈ allEnts n k w retain names values ↔ ∃ p < n, ∃ (q : Nat) (nm v : V), names[q]? = some nm ∧
      (values p)[q]? = some v ∧ e ∈ pointEnts (p * k + q) w (retain p) nm v := by
  unfold allEnts
  simp only [List.mem_flatMap, List.mem_range, mem_splitEnts]

theorem block_eq {k p q p' q' : Nat} (hq : q < k) (hq' : q' < k) (h : p * k + q = p' * k + q') : p = p' ∧ q = q' := by
  have h1 : (p * k + q) / k = p := by
    rw [Nat.mul_comm, Nat.mul_add_div (by omega), Nat.div_eq_of_lt hq]; omega
  have h2 : (p' * k + q') / k = p' := by
    rw [Nat.mul_comm, Nat.mul_add_div (by omega), Nat.div_eq_of_lt hq']; omega
  have hp : p = p' := by rw [← h1, ← h2, h]
  subst hp
  exact ⟨rfl, by omega⟩

theorem allEnts_nodup {n k w : Nat} {retain values : Nat → List V} {names : List V} (hk : names.length = k)
    (hw : ∀ p < n, (retain p).length ≤ w) : ((allEnts n k w retain names values).map Ent.pos).Nodup := by
  unfold allEnts
  rw [List.map_flatMap, List.nodup_flatMap]
  constructor
  · intro p hp; exact splitEnts_nodup (hw p (List.mem_range.1 hp))
  · refine (List.nodup_range (n := n)).imp ?_
    intro a b hab
    rw [Function.onFun, List.disjoint_left]
    intro x hx hy
    obtain ⟨e, he, rfl⟩ := List.mem_map.1 hx
    obtain ⟨e', he', hh⟩ := List.mem_map.1 hy
    obtain ⟨q, nm, v, h1, _, h3⟩ := mem_splitEnts.1 he
    obtain ⟨q', nm', v', h1', _, h3'⟩ := mem_splitEnts.1 he'
    have e1 := (mem_pointEnts.1 h3).1
    have e2 := (mem_pointEnts.1 h3').1
    have : e'.row = e.row := congrArg Prod.fst hh
    have hq := (List.getElem?_eq_some_iff.1 h1).1
    have hq' := (List.getElem?_eq_some_iff.1 h1').1
    exact hab (block_eq (by omega) (by omega) (e1.symm.trans (this.symm.trans e2))).1

section
variable [Zero V]

/-- The cells written. -/
theorem allEnts_at {n k w R C : Nat} {retain values : Nat → List V} {names : List V} (hk : names.length = k)
    (hv : ∀ p < n, (values p).length = k) (hw : ∀ p < n, (retain p).length ≤ w) {s : Option Ax}
    {x : Option (List Nat)} {p q : Nat} (hp : p < n) (hq : q < k) :
    (∀ j < w, (⟨R, C, allEnts n k w retain names values, s, x⟩ : Coo V).at (p * k + q) j =
      ((retain p)[j]?).getD 0) ∧
    some ((⟨R, C, allEnts n k w retain names values, s, x⟩ : Coo V).at (p * k + q) w) = names[q]? ∧
    some ((⟨R, C, allEnts n k w retain names values, s, x⟩ : Coo V).at (p * k + q) (w + 1)) = (values p)[q]? := by
  have hnd := allEnts_nodup (values := values) hk hw
  obtain ⟨nm, hnm⟩ : ∃ nm, names[q]? = some nm := ⟨_, List.getElem?_eq_getElem (by omega)⟩
  obtain ⟨v, hvv⟩ : ∃ v, (values p)[q]? = some v := ⟨_, List.getElem?_eq_getElem (by rw [hv p hp]; exact hq)⟩
  have hmem : ∀ e, e ∈ pointEnts (p * k + q) w (retain p) nm v →
      (⟨R, C, allEnts n k w retain names values, s, x⟩ : Coo V).at e.row e.col = e.val := by
    intro e he
    exact Coo.at_of_mem (c := ⟨R, C, allEnts n k w retain names values, s, x⟩) hnd
      (mem_allEnts.2 ⟨p, hp, q, nm, v, hnm, hvv, he⟩)
  refine ⟨fun j hj => ?_, ?_, ?_⟩
  · cases hr : (retain p)[j]? with
    | some y => exact hmem ⟨p * k + q, j, y⟩ (mem_pointEnts.2 ⟨rfl, .inl hr⟩)
    | none =>
      refine Coo.at_of_not fun e he hpos => ?_
      have hh : e.row = p * k + q ∧ e.col = j := by simpa [Ent.pos] using hpos
      obtain ⟨p', _, q', nm', v', g1, _, g3⟩ := mem_allEnts.1 he
      obtain ⟨g4, g5⟩ := mem_pointEnts.1 g3
      have hq' := (List.getElem?_eq_some_iff.1 g1).1
      obtain ⟨rfl, rfl⟩ := block_eq (k := k) hq (by omega) (hh.1.symm.trans g4)
      rw [hh.2] at g5
      rcases g5 with g5 | ⟨g5, _⟩ | ⟨g5, _⟩
      · rw [hr] at g5; cases g5
      · omega
      · omega
  · rw [hnm]; exact congrArg some (hmem ⟨p * k + q, w, nm⟩ (mem_pointEnts.2 ⟨rfl, .inr (.inl ⟨rfl, rfl⟩)⟩))
  · rw [hvv]; exact congrArg some (hmem ⟨p * k + q, w + 1, v⟩ (mem_pointEnts.2 ⟨rfl, .inr (.inr ⟨rfl, rfl⟩)⟩))
end

/-! ## The loop -/

theorem splitLoop_ok {ents : List (Ent V)} {cidx retain : List Nat} {names : List V} {k w : Nat} {pts : List Nat}
    (h : ∀ p ∈ pts, ∀ i < cidx.length, i < (rowVals ents p cidx).length) :
    splitLoop ents cidx retain names k w pts = .ok (pts.flatMap (fun pt =>
      splitEnts pt k w (rowVals ents pt retain) names (pick (rowVals ents pt cidx) (argsort cidx)))) := by
  induction pts with
  | nil => rfl
  | cons p pts ih =>
    unfold splitLoop
    rw [takeIdx_ok (fun i hi => h p (by simp) i (mem_argsort.1 hi)),
      ih (fun p hp => h p (List.mem_cons_of_mem _ hp))]
    rfl

theorem splitLoop_error {ents : List (Ent V)} {cidx retain : List Nat} {names : List V} {k w : Nat} {pts : List Nat}
    (h : ∃ p ∈ pts, (rowVals ents p cidx).length < cidx.length) :
    splitLoop ents cidx retain names k w pts = .error .IndexError := by
  induction pts with
  | nil => obtain ⟨p, hp, _⟩ := h; cases hp
  | cons p pts ih =>
    unfold splitLoop
    by_cases hp : (rowVals ents p cidx).length < cidx.length
    · rw [takeIdx_error ⟨_, mem_argsort.2 hp, Nat.le_refl _⟩]
      rfl
    · have : ∃ p ∈ pts, (rowVals ents p cidx).length < cidx.length := by
        obtain ⟨p', hm, hlt⟩ := h
        rcases List.mem_cons.1 hm with rfl | hm
        · exact absurd hlt hp
        · exact ⟨p', hm, hlt⟩
      rw [takeIdx_ok (fun i hi => by have := mem_argsort.1 hi; omega), ih this]
      rfl

end Nimble.Sp
