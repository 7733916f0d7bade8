import Verif.Model.MergeDf
import Verif.Lemmas.Merge

/-!
# Lemmas for C94: the merged frame of a DataFrame
-/

namespace Nimble

/-! ## Dropping columns -/

/-- The elements at the indices where `f` does not hold. -/
def dropBy {A : Type} : (Nat → Bool) → List A → List A
  | _, [] => []
  | f, x :: l => if f 0 then dropBy (fun i => f (i + 1)) l else x :: dropBy (fun i => f (i + 1)) l

theorem dropIdx_eq_dropBy {A : Type} : ∀ (l : List A) (X : List Nat),
    dropIdx l X = dropBy (fun i => decide (i ∈ X)) l := by
  have key : ∀ (l : List A) (f : Nat → Bool),
      ((List.range l.length).filter (fun i => ! f i)).filterMap (l[·]?) = dropBy f l := by
    intro l
    induction l with
    | nil => intro f; rfl
    | cons x l ih =>
      intro f
      rw [List.length_cons, List.range_succ_eq_map, List.filter_cons, List.filter_map]
      have hs := ih (fun i => f (i + 1))
      have hm : (((List.range l.length).filter ((fun i => ! f i) ∘ Nat.succ)).map Nat.succ).filterMap
          ((x :: l)[·]?) = dropBy (fun i => f (i + 1)) l := by
        rw [List.filterMap_map, ← hs]
        rfl
      cases hf : f 0 with
      | true => simpa [hf, dropBy] using hm
      | false =>
        simp only [Bool.not_false, if_true, List.filterMap_cons, List.getElem?_cons_zero, dropBy, hf]
        rw [hm]
        simp
  intro l X
  rw [← key l]
  unfold dropIdx pick
  congr 2
  funext i
  simp

theorem dropBy_congr {A : Type} : ∀ (l : List A) {f g : Nat → Bool},
    (∀ i, i < l.length → f i = g i) → dropBy f l = dropBy g l := by
  intro l
  induction l with
  | nil => intro f g _; rfl
  | cons x l ih =>
    intro f g h
    unfold dropBy
    rw [h 0 (by simp), ih (fun i hi => h (i + 1) (by simpa using hi))]

theorem dropBy_append {A : Type} : ∀ (l r : List A) (f : Nat → Bool), (∀ i, i < l.length → f i = false) →
    dropBy f (l ++ r) = l ++ dropBy (fun i => f (i + l.length)) r := by
  intro l
  induction l with
  | nil => intro r f _; rfl
  | cons x l ih =>
    intro r f h
    rw [List.cons_append]
    show (if f 0 then dropBy (fun i => f (i + 1)) (l ++ r)
      else x :: dropBy (fun i => f (i + 1)) (l ++ r)) = _
    rw [h 0 (by simp), if_neg (by simp), ih r _ (fun i hi => h (i + 1) (by simpa using hi)), List.cons_append]
    rfl

theorem dropIdx_append {A : Type} (l r : List A) (X : List Nat) :
    dropIdx (l ++ r) (X.map (· + l.length)) = l ++ dropIdx r X := by
  rw [dropIdx_eq_dropBy, dropIdx_eq_dropBy, dropBy_append]
  · congr 1
    apply dropBy_congr
    intro i _
    rw [decide_eq_decide]
    simp
  · intro i hi
    rw [decide_eq_false_iff_not, List.mem_map]
    rintro ⟨a, _, ha⟩
    omega

/-- The index after column `k` was taken away. -/
def shiftPast (k j : Nat) : Nat := if j > k then j - 1 else j

theorem dropBy_erase {A : Type} : ∀ (r : List A) (k : Nat) (f g : Nat → Bool), g k = true →
    (∀ j, j ≠ k → g j = f (shiftPast k j)) → dropBy f (r.eraseIdx k) = dropBy g r := by
  intro r
  induction r with
  | nil => intro k f g _ _; rfl
  | cons x r ih =>
    intro k f g hk h
    cases k with
    | zero =>
      rw [List.eraseIdx_cons_zero]
      conv_rhs => unfold dropBy
      rw [hk, if_pos rfl]
      apply dropBy_congr
      intro i _
      rw [h (i + 1) (by omega)]
      simp [shiftPast]
    | succ k =>
      rw [List.eraseIdx_cons_succ]
      unfold dropBy
      have h0 : g 0 = f 0 := by rw [h 0 (by omega)]; simp [shiftPast]
      rw [h0, ih k (fun i => f (i + 1)) (fun i => g (i + 1)) hk]
      intro j hj
      rw [h (j + 1) (by omega)]
      congr 1
      unfold shiftPast
      split <;> split <;> omega

theorem getElem?_erase {A : Type} (r : List A) {k j : Nat} (h : j ≠ k) :
    (r.eraseIdx k)[shiftPast k j]? = r[j]? := by
  rw [List.getElem?_eraseIdx]
  unfold shiftPast
  by_cases h1 : j > k
  · rw [if_pos h1, if_neg (by omega)]
    congr 1
    omega
  · rw [if_neg h1, if_pos (by omega)]

section
variable {V : Type} [DecidableEq V]

/-! ## The loop over the matching columns -/

/-- What the loop does to one row. -/
def fillAll (nan : V) (ps : List (Nat × Nat)) (r : List V) : List V :=
  ps.foldl (fun r p => dfFillRow nan p.1 p.2 r) r

theorem rowCell_set {nan v : V} {r : List V} {a c : Nat} (h : c ≠ a) :
    rowCell nan (r.set a v) c = rowCell nan r c := by
  rw [rowCell_eq, rowCell_eq, List.getElem?_set_ne (Ne.symm h)]

theorem rowCell_fillRow {nan : V} {r : List V} {a b c : Nat} (h : c ≠ a) :
    rowCell nan (dfFillRow nan a b r) c = rowCell nan r c := by
  unfold dfFillRow
  split
  · exact rowCell_set h
  · rfl

theorem dfColOk_iff {nan : V} {a b : Nat} {rows : List (List V)} :
    dfColOk nan a b rows = true ↔ ∀ r ∈ rows, Agree nan (rowCell nan r a) (rowCell nan r b) := by
  unfold dfColOk
  rw [List.all_eq_true]
  exact forall₂_congr fun r _ => pairOk_iff

theorem dfLoop_spec {nan : V} {n : Nat} : ∀ (ps : List (Nat × Nat)) (rows : List (List V)),
    (∀ p ∈ ps, p.1 < n ∧ n ≤ p.2) → (ps.map Prod.fst).Nodup →
    ((∀ r ∈ rows, ∀ p ∈ ps, Agree nan (rowCell nan r p.1) (rowCell nan r p.2)) →
      dfLoop nan ps rows = (rows.map (fillAll nan ps), .ok ())) ∧
    (¬ (∀ r ∈ rows, ∀ p ∈ ps, Agree nan (rowCell nan r p.1) (rowCell nan r p.2)) →
      (dfLoop nan ps rows).2 = .error .InvalidArgumentValue) := by
  intro ps
  induction ps with
  | nil =>
    intro rows _ _
    refine ⟨fun _ => ?_, fun h => absurd (fun _ _ _ hp => by cases hp) h⟩
    have : rows.map (fillAll nan []) = rows := List.map_id' rows
    rw [this]; rfl
  | cons p ps ih =>
    intro rows hb hn
    rw [List.map_cons, List.nodup_cons] at hn
    have hih := ih (rows.map (dfFillRow nan p.1 p.2)) (fun q hq => hb q (List.mem_cons_of_mem _ hq)) hn.2
    have hkeep : ∀ r, ∀ q ∈ ps, (Agree nan (rowCell nan (dfFillRow nan p.1 p.2 r) q.1)
        (rowCell nan (dfFillRow nan p.1 p.2 r) q.2) ↔ Agree nan (rowCell nan r q.1) (rowCell nan r q.2)) := by
      intro r q hq
      have h1 : q.1 ≠ p.1 := by
        intro e
        exact hn.1 (by rw [← e]; exact List.mem_map_of_mem (f := Prod.fst) hq)
      have h2 : q.2 ≠ p.1 := by
        have := (hb q (List.mem_cons_of_mem _ hq)).2
        have := (hb p List.mem_cons_self).1
        omega
      rw [rowCell_fillRow h1, rowCell_fillRow h2]
    have hiff : (∀ r ∈ rows.map (dfFillRow nan p.1 p.2), ∀ q ∈ ps,
        Agree nan (rowCell nan r q.1) (rowCell nan r q.2)) ↔
        ∀ r ∈ rows, ∀ q ∈ ps, Agree nan (rowCell nan r q.1) (rowCell nan r q.2) := by
      rw [List.forall_mem_map]
      exact forall₂_congr fun r _ => forall₂_congr fun q hq => hkeep r q hq
    constructor
    · intro h
      unfold dfLoop
      rw [if_pos (dfColOk_iff.2 fun r hr => h r hr p List.mem_cons_self),
        hih.1 (hiff.2 fun r hr q hq => h r hr q (List.mem_cons_of_mem _ hq)), List.map_map]
      rfl
    · intro h
      unfold dfLoop
      by_cases hc : dfColOk nan p.1 p.2 rows = true
      · rw [if_pos hc]
        apply hih.2
        rw [hiff]
        intro hh
        apply h
        intro r hr q hq
        rcases List.mem_cons.1 hq with rfl | hq
        · exact dfColOk_iff.1 hc r hr
        · exact hh r hr q hq
      · rw [if_neg hc]

/-- The left columns of a row after the loop; the positions in the right frame are relative. -/
def relFill (nan : V) (ps : List (Nat × Nat)) (r l : List V) : List V :=
  ps.foldl (fun l p => if rowCell nan l p.1 = nan then l.set p.1 (rowCell nan r p.2) else l) l

theorem rowCell_append_left {nan : V} {l r : List V} {a : Nat} (h : a < l.length) :
    rowCell nan (l ++ r) a = rowCell nan l a := by
  rw [rowCell_eq, rowCell_eq, List.getElem?_append_left h]

theorem rowCell_append_right {nan : V} {l r : List V} {b : Nat} :
    rowCell nan (l ++ r) (b + l.length) = rowCell nan r b := by
  rw [rowCell_eq, rowCell_eq, List.getElem?_append_right (by omega), Nat.add_sub_cancel]

theorem fillAll_split {nan : V} {r : List V} {n : Nat} : ∀ (ps : List (Nat × Nat)) (l : List V),
    l.length = n → (∀ p ∈ ps, p.1 < n) →
    fillAll nan (ps.map (fun p => (p.1, p.2 + n))) (l ++ r) = relFill nan ps r l ++ r := by
  intro ps
  induction ps with
  | nil => intro l _ _; rfl
  | cons p ps ih =>
    intro l hl hb
    have h1 := hb p List.mem_cons_self
    have hstep : dfFillRow nan p.1 (p.2 + n) (l ++ r)
        = (if rowCell nan l p.1 = nan then l.set p.1 (rowCell nan r p.2) else l) ++ r := by
      unfold dfFillRow
      rw [rowCell_append_left (by omega), ← hl, rowCell_append_right]
      split
      · rw [List.set_append_left _ _ (by omega)]
      · rfl
    show fillAll nan (ps.map (fun p => (p.1, p.2 + n))) (dfFillRow nan p.1 (p.2 + n) (l ++ r)) = _
    rw [hstep]
    exact ih _ (by split <;> simp [hl]) (fun q hq => hb q (List.mem_cons_of_mem _ hq))

theorem relFill_get {nan : V} {r : List V} : ∀ (ps : List (Nat × Nat)) (l : List V),
    (ps.map Prod.fst).Nodup → ∀ i : Nat,
    (relFill nan ps r l)[i]? = (l[i]?).map (fun v =>
      if v = nan then ((ps.find? (fun p => p.1 == i)).map (fun p => rowCell nan r p.2)).getD v else v) := by
  intro ps
  induction ps with
  | nil => intro l _ i; simp [relFill]
  | cons p ps ih =>
    intro l hn i
    rw [List.map_cons, List.nodup_cons] at hn
    have := ih (if rowCell nan l p.1 = nan then l.set p.1 (rowCell nan r p.2) else l) hn.2 i
    show (relFill nan ps r (if rowCell nan l p.1 = nan then l.set p.1 (rowCell nan r p.2) else l))[i]? = _
    rw [this]
    by_cases hi : p.1 = i
    · subst hi
      have hnone : ps.find? (fun q => q.1 == p.1) = none := by
        rw [List.find?_eq_none]
        intro q hq e
        exact hn.1 (by rw [← beq_iff_eq.1 e]; exact List.mem_map_of_mem (f := Prod.fst) hq)
      rw [List.find?_cons, hnone]
      simp only [beq_self_eq_true, Option.map_some, Option.getD_some, Option.map_none, Option.getD_none,
        ite_self, Option.map_id']
      by_cases hlt : p.1 < l.length
      · rw [List.getElem?_eq_getElem hlt, Option.map_some]
        have hc : rowCell nan l p.1 = l[p.1] := by rw [rowCell_eq, List.getElem?_eq_getElem hlt]; rfl
        rw [hc]
        split
        · rw [List.getElem?_set_self hlt]
        · rw [List.getElem?_eq_getElem hlt]
      · rw [List.getElem?_eq_none (by split <;> first | (rw [List.length_set]; omega) | omega), List.getElem?_eq_none (by omega)]
        rfl
    · rw [List.find?_cons, show (p.1 == i) = false by simpa using hi]
      split
      · rw [List.getElem?_set_ne hi]
      · rfl

theorem relFill_eq {nan : V} {mL mR : List Nat} (hl : mL.length = mR.length) (hn : mL.Nodup)
    (l r : List V) : relFill nan (mL.zip mR) r l = fillLeft nan mL mR l r := by
  apply List.ext_getElem?
  intro i
  rw [relFill_get _ _ (by rw [List.map_fst_zip (by omega)]; exact hn)]
  unfold fillLeft
  rw [List.getElem?_mapIdx]
  congr 1
  funext v
  have hf := find?_zip_mate mL mR hl i
  have hf2 : ((mL.zip mR).find? (fun p => p.1 == i)).map (fun p => rowCell nan r p.2)
      = (mateIn mL mR i).map (rowCell nan r) := by
    rw [← hf, Option.map_map]; rfl
  rw [hf2]
  unfold mateIn
  by_cases hv : v = nan <;> by_cases hi : i ∈ mL <;> simp [hv, hi]

theorem length_relFill {nan : V} {r : List V} : ∀ (ps : List (Nat × Nat)) (l : List V),
    (relFill nan ps r l).length = l.length := by
  intro ps
  induction ps with
  | nil => intro l; rfl
  | cons p ps ih =>
    intro l
    show (relFill nan ps r (if rowCell nan l p.1 = nan then l.set p.1 (rowCell nan r p.2) else l)).length = _
    rw [ih]
    split <;> simp

/-! ## Rows with nothing on one side -/

theorem pickCell_nan_left (nan : V) (b : Option V) : pickCell nan (some nan) b = pickCell nan none b := by
  simp [pickCell]

theorem pickCell_nan_right (nan : V) (a : Option V) : pickCell nan a (some nan) = pickCell nan a none := by
  cases a <;> simp [pickCell]

theorem cellOf_replicate (nan : V) (n : Nat) (i : Option Nat) :
    cellOf (some (List.replicate n nan)) i = none ∨ cellOf (some (List.replicate n nan)) i = some nan := by
  cases i with
  | none => left; rfl
  | some i =>
    by_cases h : i < n
    · right; simp [cellOf, h]
    · left; simp [cellOf]; omega

theorem outRow_nan_left (nan : V) (n : Nat) (cols : List (Option Nat × Option Nat)) (r : Option (List V)) :
    outRow nan cols (some (List.replicate n nan)) r = outRow nan cols none r := by
  unfold outRow
  apply List.map_congr_left
  intro q _
  have : cellOf (none : Option (List V)) q.1 = none := rfl
  rcases cellOf_replicate nan n q.1 with h | h
  · rw [h, this]
  · rw [h, this, pickCell_nan_left]

theorem outRow_nan_right (nan : V) (n : Nat) (cols : List (Option Nat × Option Nat)) (l : Option (List V)) :
    outRow nan cols l (some (List.replicate n nan)) = outRow nan cols l none := by
  unfold outRow
  apply List.map_congr_left
  intro q _
  have : cellOf (none : Option (List V)) q.2 = none := rfl
  rcases cellOf_replicate nan n q.2 with h | h
  · rw [h, this]
  · rw [h, this, pickCell_nan_right]

/-- A row of the merged frame of a join on the index, after the loop and without the columns dropped. -/
theorem row_out {nan : V} {mL mR : List Nat} {n w : Nat} (hl : mL.length = mR.length) (hn : mL.Nodup)
    (hb : ∀ a ∈ mL, a < n) (l r : Option (List V)) (hlen : ∀ q, l = some q → q.length = n)
    (hrlen : ∀ q, r = some q → q.length = w) :
    dropIdx (fillAll nan ((mL.zip mR).map (fun p => (p.1, p.2 + n))) (pdRow nan n w l r))
        (((mL.zip mR).map (fun p => (p.1, p.2 + n))).map Prod.snd)
      = outRow nan (colsOf n mL mR w) l r := by
  have key : ∀ l r : List V, l.length = n → r.length = w →
      dropIdx (fillAll nan ((mL.zip mR).map (fun p => (p.1, p.2 + n))) (l ++ r))
        (((mL.zip mR).map (fun p => (p.1, p.2 + n))).map Prod.snd)
      = outRow nan (colsOf n mL mR w) (some l) (some r) := by
    intro l r h1 h2
    rw [fillAll_split _ _ h1 (fun p hp => hb _ (List.of_mem_zip hp).1)]
    have hm : ((mL.zip mR).map (fun p => (p.1, p.2 + n))).map Prod.snd
        = mR.map (· + (relFill nan (mL.zip mR) r l).length) := by
      rw [length_relFill, h1, List.map_map]
      conv_rhs => rw [← List.map_snd_zip (l₁ := mL) (l₂ := mR) (by omega), List.map_map]
      rfl
    rw [hm, dropIdx_append, relFill_eq hl hn, fill_outRow, h1, h2]
  unfold pdRow
  have hR : ∀ l' : List V, l'.length = n →
      dropIdx (fillAll nan ((mL.zip mR).map (fun p => (p.1, p.2 + n)))
          (l' ++ r.getD (List.replicate w nan)))
        (((mL.zip mR).map (fun p => (p.1, p.2 + n))).map Prod.snd)
      = outRow nan (colsOf n mL mR w) (some l') r := by
    intro l' h'
    cases r with
    | none => rw [Option.getD_none, key _ _ h' (by simp), outRow_nan_right]
    | some r => rw [Option.getD_some, key _ _ h' (hrlen r rfl)]
  cases l with
  | none => rw [Option.getD_none, hR _ (by simp), outRow_nan_left]
  | some l => rw [Option.getD_some, hR _ (hlen l rfl)]

end
end Nimble

namespace Nimble
section
variable {V : Type} [DecidableEq V]

/-! ## A join on a column -/

/-- The matching columns apart from the one joined on; the position in the right frame without that
column. -/
def relOn (onL onR : Nat) (ps : List (Nat × Nat)) : List (Nat × Nat) :=
  (ps.filter (fun p => decide (p.1 ≠ onL))).map (fun p => (p.1, shiftPast onR p.2))

theorem dfOnPairs_eq (n onL onR : Nat) (ps : List (Nat × Nat)) :
    dfOnPairs n onL onR ps = (relOn onL onR ps).map (fun p => (p.1, p.2 + n)) := by
  unfold dfOnPairs relOn
  rw [List.map_map]
  apply List.map_congr_left
  intro p _
  simp only [Function.comp, Prod.mk.injEq, true_and]
  unfold shiftPast
  split <;> split <;> omega

theorem zip_functional {mL mR : List Nat} (hnL : mL.Nodup) (hnR : mR.Nodup) {p q : Nat × Nat}
    (hp : p ∈ mL.zip mR) (hq : q ∈ mL.zip mR) : p.1 = q.1 ↔ p.2 = q.2 := by
  obtain ⟨i, hi, rfl⟩ := List.getElem_of_mem hp
  obtain ⟨j, hj, rfl⟩ := List.getElem_of_mem hq
  rw [List.length_zip] at hi hj
  simp only [List.getElem_zip]
  rw [hnL.getElem_inj_iff, hnR.getElem_inj_iff]

theorem rowCell_erase {nan : V} {r : List V} {k j : Nat} (h : j ≠ k) :
    rowCell nan (r.eraseIdx k) (shiftPast k j) = rowCell nan r j := by
  rw [rowCell_eq, rowCell_eq, getElem?_erase r h]

theorem relOn_find {nan : V} {mL mR : List Nat} (hnL : mL.Nodup) (hnR : mR.Nodup) {onL onR : Nat}
    (hon : (onL, onR) ∈ mL.zip mR) (r : List V) (i : Nat) :
    ((relOn onL onR (mL.zip mR)).find? (fun p => p.1 == i)).map
        (fun p => rowCell nan (r.eraseIdx onR) p.2)
      = if i = onL then none
        else ((mL.zip mR).find? (fun p => p.1 == i)).map (fun p => rowCell nan r p.2) := by
  unfold relOn
  rw [List.find?_map, List.find?_filter, Option.map_map]
  by_cases hi : i = onL
  · rw [if_pos hi, Option.map_eq_none_iff, List.find?_eq_none]
    intro p _ h
    simp at h
    omega
  · rw [if_neg hi]
    have hp : (fun a : Nat × Nat => decide (decide (a.1 ≠ onL) = true ∧
        ((fun p : Nat × Nat => p.1 == i) ∘ fun p => (p.1, shiftPast onR p.2)) a = true))
        = (fun p => p.1 == i) := by
      funext a
      rw [Bool.eq_iff_iff]
      simp
      intro e; omega
    rw [hp]
    cases hf : (mL.zip mR).find? (fun p => p.1 == i) with
    | none => rfl
    | some q =>
      have h1 : q.1 = i := by simpa using List.find?_some hf
      have h2 : q ∈ mL.zip mR := List.mem_of_find?_eq_some hf
      have h3 : q.2 ≠ onR := fun e => hi (by rw [← h1]; exact (zip_functional hnL hnR h2 hon).2 e)
      simp [rowCell_erase h3]

theorem relOn_nodup {mL mR : List Nat} (hl : mL.length = mR.length) (hnL : mL.Nodup) (onL onR : Nat) :
    ((relOn onL onR (mL.zip mR)).map Prod.fst).Nodup := by
  have : (relOn onL onR (mL.zip mR)).map Prod.fst
      = ((mL.zip mR).filter (fun p => decide (p.1 ≠ onL))).map Prod.fst := by
    unfold relOn; rw [List.map_map]; rfl
  rw [this]
  have hs : (((mL.zip mR).filter (fun p => decide (p.1 ≠ onL))).map Prod.fst).Sublist mL := by
    conv_rhs => rw [← List.map_fst_zip (l₁ := mL) (l₂ := mR) (by omega)]
    exact List.filter_sublist.map _
  exact hs.nodup hnL

theorem drop_on {mL mR : List Nat} (hl : mL.length = mR.length) (hnL : mL.Nodup) (hnR : mR.Nodup)
    {onL onR : Nat} (hon : (onL, onR) ∈ mL.zip mR) (r : List V) :
    dropIdx (r.eraseIdx onR) ((relOn onL onR (mL.zip mR)).map Prod.snd) = dropIdx r mR := by
  rw [dropIdx_eq_dropBy, dropIdx_eq_dropBy]
  apply dropBy_erase
  · exact decide_eq_true (List.of_mem_zip hon).2
  · intro j hj
    rw [decide_eq_decide]
    unfold relOn
    rw [List.map_map, List.mem_map]
    simp only [List.mem_filter, Function.comp, decide_eq_true_eq]
    constructor
    · intro hm
      rw [← List.map_snd_zip (l₁ := mL) (l₂ := mR) (by omega)] at hm
      obtain ⟨p, hp, rfl⟩ := List.mem_map.1 hm
      exact ⟨p, ⟨hp, fun e => hj ((zip_functional hnL hnR hp hon).1 e)⟩, rfl⟩
    · rintro ⟨p, ⟨hp, hne⟩, he⟩
      have h2 : p.2 ≠ onR := fun e => hne ((zip_functional hnL hnR hp hon).2 e)
      have : p.2 = j := by
        unfold shiftPast at he
        split at he <;> split at he <;> omega
      rw [← this]
      exact (List.of_mem_zip hp).2

theorem fill_on {nan : V} {mL mR : List Nat} (hl : mL.length = mR.length) (hnL : mL.Nodup)
    (hnR : mR.Nodup) {onL onR : Nat} (hon : (onL, onR) ∈ mL.zip mR) {l r : List V}
    (hv : rowCell nan l onL = nan → rowCell nan r onR = nan) :
    relFill nan (relOn onL onR (mL.zip mR)) (r.eraseIdx onR) l = fillLeft nan mL mR l r := by
  rw [← relFill_eq hl hnL]
  apply List.ext_getElem?
  intro i
  rw [relFill_get _ _ (relOn_nodup hl hnL onL onR),
    relFill_get _ _ (by rw [List.map_fst_zip (by omega)]; exact hnL), relOn_find hnL hnR hon]
  by_cases hi : i = onL
  · rw [if_pos hi]
    cases hx : l[i]? with
    | none => rfl
    | some v =>
      simp only [Option.map_some, Option.map_none, Option.getD_none, ite_self]
      by_cases hvn : v = nan
      · rw [if_pos hvn]
        have hc : rowCell nan l onL = nan := by rw [rowCell_eq, ← hi, hx]; exact hvn
        have hr := hv hc
        cases hf : (mL.zip mR).find? (fun p => p.1 == i) with
        | none => rfl
        | some q =>
          have h1 : q.1 = i := by simpa using List.find?_some hf
          have h2 : q ∈ mL.zip mR := List.mem_of_find?_eq_some hf
          have h3 : q.2 = onR := (zip_functional hnL hnR h2 hon).1 (by rw [h1, hi])
          simp [h3, hr, hvn]
      · rw [if_neg hvn]
  · rw [if_neg hi]

theorem mateIn_of_mem {mL mR : List Nat} (hl : mL.length = mR.length) (hnL : mL.Nodup) (hnR : mR.Nodup)
    {a b : Nat} (h : (a, b) ∈ mL.zip mR) : mateIn mL mR a = some b := by
  rw [← find?_zip_mate mL mR hl a]
  cases hf : (mL.zip mR).find? (fun p => p.1 == a) with
  | none =>
    rw [List.find?_eq_none] at hf
    exact absurd (by simp) (hf _ h)
  | some q =>
    have h1 : q.1 = a := by simpa using List.find?_some hf
    have h2 := (zip_functional hnL hnR (List.mem_of_find?_eq_some hf) h).1 h1
    simp at h2
    simp [h2]

theorem set_out {nan : V} {mL mR : List Nat} {n w onL onR : Nat} (hm : mateIn mL mR onL = some onR)
    (r : Option (List V)) :
    outRow nan (colsOf n mL mR w)
        (some ((List.replicate n nan).set onL (rowCell nan (r.getD []) onR))) r
      = outRow nan (colsOf n mL mR w) none r := by
  unfold outRow
  apply List.map_congr_left
  intro q hq
  unfold colsOf at hq
  rcases List.mem_append.1 hq with hq | hq
  · obtain ⟨i, hi, rfl⟩ := List.mem_map.1 hq
    have hi : i < n := by simpa using hi
    by_cases he : i = onL
    · subst he
      dsimp only
      rw [hm]
      have h1 : cellOf (some ((List.replicate n nan).set i (rowCell nan (r.getD []) onR))) (some i)
          = some (rowCell nan (r.getD []) onR) := by
        simp [cellOf, hi]
      have h2 : rowCell nan (r.getD []) onR = (cellOf r (some onR)).getD nan := by
        rw [rowCell_eq]
        cases r with
        | none => simp [cellOf]
        | some r => simp [cellOf]
      rw [h1, h2]
      simp only [pickCell]
      split
      · rfl
      · rfl
    · have h1 : cellOf (some ((List.replicate n nan).set onL (rowCell nan (r.getD []) onR))) (some i)
          = some nan := by
        show ((List.replicate n nan).set onL (rowCell nan (r.getD []) onR))[i]? = some nan
        rw [List.getElem?_set_ne (Ne.symm he), List.getElem?_replicate, if_pos hi]
      rw [h1, pickCell_nan_left]
      rfl
  · obtain ⟨j, _, rfl⟩ := List.mem_map.1 hq
    rfl

/-- A row of the merged frame of a join on a column, after the loop and without the columns dropped. -/
theorem row_out_on {nan : V} {mL mR : List Nat} {n w : Nat} (hl : mL.length = mR.length) (hnL : mL.Nodup)
    (hnR : mR.Nodup) (hb : ∀ a ∈ mL, a < n) {onL onR : Nat}
    (hon : (onL, onR) ∈ mL.zip mR) (l r : Option (List V)) (hlen : ∀ q, l = some q → q.length = n)
    (hrlen : ∀ q, r = some q → q.length = w)
    (hkey : ∀ a b, l = some a → r = some b → rowCell nan a onL = rowCell nan b onR) :
    dropIdx (fillAll nan (dfOnPairs n onL onR (mL.zip mR)) (pdRowOn nan n w onL onR l r))
        ((dfOnPairs n onL onR (mL.zip mR)).map Prod.snd)
      = outRow nan (colsOf n mL mR w) l r := by
  rw [dfOnPairs_eq]
  have key : ∀ l r : List V, l.length = n → r.length = w →
      (rowCell nan l onL = nan → rowCell nan r onR = nan) →
      dropIdx (fillAll nan ((relOn onL onR (mL.zip mR)).map (fun p => (p.1, p.2 + n)))
          (l ++ r.eraseIdx onR))
        (((relOn onL onR (mL.zip mR)).map (fun p => (p.1, p.2 + n))).map Prod.snd)
      = outRow nan (colsOf n mL mR w) (some l) (some r) := by
    intro l r h1 h2 hv
    rw [fillAll_split _ _ h1 (by
      intro p hp
      obtain ⟨q, hq, rfl⟩ := List.mem_map.1 hp
      exact hb _ (List.of_mem_zip (List.mem_filter.1 hq).1).1)]
    have hm : ((relOn onL onR (mL.zip mR)).map (fun p => (p.1, p.2 + n))).map Prod.snd
        = ((relOn onL onR (mL.zip mR)).map Prod.snd).map
          (· + (relFill nan (relOn onL onR (mL.zip mR)) (r.eraseIdx onR) l).length) := by
      rw [length_relFill, h1, List.map_map, List.map_map]
      rfl
    rw [hm, dropIdx_append, fill_on hl hnL hnR hon hv, drop_on hl hnL hnR hon, fill_outRow, h1, h2]
  unfold pdRowOn
  cases l with
  | some l =>
    rw [Option.getD_some]
    cases r with
    | some r =>
      rw [Option.getD_some, key _ _ (hlen l rfl) (hrlen r rfl) (fun e => by rw [← hkey l r rfl rfl]; exact e)]
    | none =>
      rw [Option.getD_none, key _ _ (hlen l rfl) (by simp) (fun _ => ?_), outRow_nan_right]
      rw [rowCell_eq, List.getElem?_replicate]
      split <;> rfl
  | none =>
    rw [Option.getD_none]
    have hbl : onL < n := hb _ (List.of_mem_zip hon).1
    have hself : ∀ v : V, rowCell nan ((List.replicate n nan).set onL v) onL = v := by
      intro v
      rw [rowCell_eq, List.getElem?_set_self (by simpa using hbl)]; rfl
    rw [← set_out (mateIn_of_mem hl hnL hnR hon) r]
    cases r with
    | none =>
      rw [Option.getD_none, Option.getD_none, key _ _ (by simp) (by simp) (fun _ => ?_), outRow_nan_right]
      rw [rowCell_eq, List.getElem?_replicate]
      split <;> rfl
    | some r =>
      rw [Option.getD_some, Option.getD_some, key _ _ (by simp) (hrlen r rfl)
        (fun e => by rw [hself] at e; exact e)]

end

/-! ## The pairs of rows -/

theorem pdJoin_eq {K : Type} [DecidableEq K] (how : MergeMode) (kl kr : List K) (mates : Nat → List Nat)
    (h : ∀ i k, kl[i]? = some k → pdFind kr k = mates i) :
    pdJoin how kl kr = joined how kl.length kr.length mates := by
  unfold pdJoin joined
  congr 1
  · have hz : kl.zipIdx.flatMap (fun p => pdOf how kr p.1 p.2)
        = kl.zipIdx.flatMap (fun p => if mates p.2 = [] then
            (if how = .intersection then [] else [(some p.2, none)])
            else (mates p.2).map (fun j => (some p.2, some j))) := by
      apply List.flatMap_congr
      intro p hp
      unfold pdOf
      rw [h p.2 p.1 (by simpa [List.mem_zipIdx_iff_getElem?] using hp)]
    rw [hz]
    have hr : List.range kl.length = kl.zipIdx.map Prod.snd := by
      rw [List.zipIdx_map_snd, List.range_eq_range']
    rw [hr, List.flatMap_map]
  · split
    · congr 1
      apply List.filter_congr
      intro j _
      rw [decide_eq_decide]
      constructor
      · intro hh i hi hm
        have hi : i < kl.length := by simpa using hi
        rw [← h i kl[i] (List.getElem?_eq_getElem hi)] at hm
        exact hh kl[i] (List.getElem_mem hi) (by simpa using (List.mem_filter.1 hm).2)
      · intro hh k hk e
        obtain ⟨i, hi, rfl⟩ := List.getElem_of_mem hk
        apply hh i (by simpa using hi)
        rw [← h i kl[i] (List.getElem?_eq_getElem hi)]
        refine List.mem_filter.2 ⟨?_, by simpa using e⟩
        simpa using (List.getElem?_eq_some_iff.1 e).1
    · rfl

theorem mem_joined_both {mode : MergeMode} {nL nR i j : Nat} {mates : Nat → List Nat} :
    (some i, some j) ∈ joined mode nL nR mates ↔ i < nL ∧ j ∈ mates i := by
  unfold joined
  rw [List.mem_append, List.mem_flatMap]
  constructor
  · rintro (⟨k, hk, h⟩ | h)
    · split at h
      · split at h <;> simp at h
      · obtain ⟨j', hj', e⟩ := List.mem_map.1 h
        simp only [Prod.mk.injEq, Option.some.injEq] at e
        rw [← e.1, ← e.2]
        exact ⟨by simpa using hk, hj'⟩
    · split at h
      · obtain ⟨_, _, e⟩ := List.mem_map.1 h
        simp at e
      · cases h
  · rintro ⟨hi, hj⟩
    left
    refine ⟨i, by simpa using hi, ?_⟩
    rw [if_neg (by intro e; rw [e] at hj; cases hj)]
    exact List.mem_map.2 ⟨j, hj, rfl⟩

theorem getElem?_pdIndex (names : List (Option String)) (add i : Nat) :
    (pdIndex names add)[i]? = (names[i]?).map (fun n => pdKey add (n, i)) := by
  unfold pdIndex
  rw [List.getElem?_map, List.getElem?_zipIdx, Option.map_map]
  simp only [Nat.zero_add]
  rfl

theorem length_pdIndex (names : List (Option String)) (add : Nat) :
    (pdIndex names add).length = names.length := by simp [pdIndex]

end Nimble
