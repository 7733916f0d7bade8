import Verif.Lemmas.NameChecks
import Verif.Model.Binary
import Verif.Props.Structural

/-!
# Names in binary operations: C15
-/

namespace Nimble
open Obj
variable {V : Type}

/-- Two name lists agree: no position carries two different names, and no name sits at different
positions of the two lists. -/
def NamesAgree (l r : List (Option String)) : Prop :=
  (∀ (i : Nat) (s t : String), l[i]? = some (some s) → r[i]? = some (some t) → s = t) ∧
  (∀ (i j : Nat) (s : String), l[i]? = some (some s) → r[j]? = some (some s) → i = j)

theorem NamesAgree.symm {l r : List (Option String)} (h : NamesAgree l r) : NamesAgree r l :=
  ⟨fun i s t hs ht => (h.1 i t s ht hs).symm, fun i j s hi hj => (h.2 j i s hj hi).symm⟩

theorem cleanAt_iff {l r : List (Option String)} (hr : r.reduceOption.Nodup) :
    (∀ k s, l[k]? = some (some s) → CleanAt r k s) ↔ NamesAgree l r := by
  constructor
  · intro h
    constructor
    · intro i s t hs ht
      rcases h i s hs with ⟨r', h1, h2⟩ | ⟨h1, _⟩
      · rw [ht] at h1; simp at h1; rw [h2, h1]
      · rw [ht] at h1; simp at h1
    · intro i j s hs ht
      rcases h i s hs with ⟨r', h1, h2⟩ | ⟨_, h1⟩
      · subst h2
        refine reduceOption_nodup_iff.1 hr i j s ?_ ht
        cases hk : r[i]? with
        | none => rw [hk] at h1; cases h1
        | some x => rw [hk] at h1; simp at h1; rw [h1]
      · exact absurd (List.mem_of_getElem? ht) h1
  · intro h k s hs
    cases hk : (r[k]?).join with
    | some t =>
      have : r[k]? = some (some t) := by
        cases hk' : r[k]? with
        | none => rw [hk'] at hk; cases hk
        | some x => rw [hk'] at hk; simp at hk; rw [hk]
      exact Or.inl ⟨t, hk, h.1 k s t hs this⟩
    | none =>
      refine Or.inr ⟨hk, fun hm => ?_⟩
      obtain ⟨j, hj, he⟩ := List.getElem_of_mem hm
      have := h.2 k j s hs (by rw [List.getElem?_eq_getElem hj, he])
      subst this
      rw [List.getElem?_eq_getElem hj, he] at hk; cases hk

/-- C15. The name check reports no inconsistency exactly when the two lists agree. -/
theorem C15_check_iff {l r : List (Option String)} (hl : l.reduceOption.Nodup)
    (hr : r.reduceOption.Nodup) : inconsistentNames l r = [] ↔ NamesAgree l r := by
  rw [inconsistentNames_nil_iff, cleanAt_iff hr, cleanAt_iff hl]
  exact ⟨fun h => h.1, fun h => ⟨h, h.symm⟩⟩

theorem getElem?_mergeNameLists (b o : List (Option String)) (hl : b.length = o.length) (i : Nat) :
    (mergeNameLists b o)[i]? = (b[i]?).map (fun x => if x.isNone then (o[i]?).join else x) := by
  induction b generalizing o i with
  | nil => simp [mergeNameLists]
  | cons x b ih =>
    cases o with
    | nil => simp at hl
    | cons y o =>
      cases i with
      | zero => simp [mergeNameLists]
      | succ i => simpa [mergeNameLists] using ih o (by simpa using hl) i

theorem length_mergeNameLists (b o : List (Option String)) : (mergeNameLists b o).length = b.length := by
  induction b generalizing o with
  | nil => simp [mergeNameLists]
  | cons x b ih => cases o <;> simp [mergeNameLists, ih]

/-- C15. Merging two agreeing name lists keeps every name of either side at its position and the
names stay distinct. -/
theorem C15_merge {l r : List (Option String)} (hlen : l.length = r.length)
    (hl : l.reduceOption.Nodup) (hr : r.reduceOption.Nodup) (ha : NamesAgree l r) :
    (mergeNameLists l r).length = l.length ∧
    (∀ (i : Nat) (s : String), (mergeNameLists l r)[i]? = some (some s) ↔
      (l[i]? = some (some s) ∨ r[i]? = some (some s))) ∧
    (mergeNameLists l r).reduceOption.Nodup := by
  have key : ∀ (i : Nat) (s : String), (mergeNameLists l r)[i]? = some (some s) ↔
      (l[i]? = some (some s) ∨ r[i]? = some (some s)) := by
    intro i s
    rw [getElem?_mergeNameLists l r hlen]
    cases hli : l[i]? with
    | none =>
      have : r[i]? = none := by
        rw [List.getElem?_eq_none_iff] at hli ⊢; omega
      simp [this]
    | some x =>
      cases x with
      | none =>
        cases hri : r[i]? with
        | none => simp
        | some y => simp
      | some t =>
        simp only [Option.map_some, Option.isNone_some, Bool.false_eq_true, if_false, Option.some.injEq]
        constructor
        · exact Or.inl
        · rintro (h | h)
          · exact h
          · exact ha.1 i t s hli h
  refine ⟨length_mergeNameLists l r, key, ?_⟩
  rw [reduceOption_nodup_iff]
  intro i j s hi hj
  rw [key] at hi hj
  rcases hi with hi | hi <;> rcases hj with hj | hj
  · exact reduceOption_nodup_iff.1 hl i j s hi hj
  · exact ha.2 i j s hi hj
  · exact (ha.2 j i s hj hi).symm
  · exact reduceOption_nodup_iff.1 hr i j s hi hj

theorem namesAgree_default_right {l r : List (Option String)} (h : ∀ x ∈ r, x = none) : NamesAgree l r :=
  ⟨fun i _ t _ ht => (by have := h _ (List.mem_of_getElem? ht); cases this),
   fun i j s _ hj => (by have := h _ (List.mem_of_getElem? hj); cases this)⟩

theorem default_of_none {a : AxisSt} (h : a.tbl = none) : ∀ x ∈ a.getNames, x = none := by
  simp [AxisSt.getNames, h, List.mem_replicate]

theorem namesEqualCheck_iff {a b : AxisSt} (ha : a.Ok) (hb : b.Ok) :
    namesEqualCheck a b = true ↔ NamesAgree a.getNames b.getNames := by
  unfold namesEqualCheck
  cases h1 : a.tbl with
  | none => simp [(namesAgree_default_right (l := b.getNames) (default_of_none h1)).symm]
  | some ta =>
    cases h2 : b.tbl with
    | none => simp [namesAgree_default_right (l := a.getNames) (default_of_none h2)]
    | some tb =>
      rw [AxisSt.getNames_of_some h1, AxisSt.getNames_of_some h2, List.isEmpty_iff]
      exact C15_check_iff (ha ta h1).reduceOption_nodup (hb tb h2).reduceOption_nodup

/-- The two axes share no given name. -/
def NamesDisjoint (l r : List (Option String)) : Prop := ∀ s : String, some s ∈ l → some s ∉ r

theorem namesDisjointCheck_iff (a b : AxisSt) :
    namesDisjointCheck a b = true ↔ NamesDisjoint a.getNames b.getNames := by
  simp [namesDisjointCheck, NamesDisjoint, List.reduceOption_mem_iff]

/-- Names of the result along one axis: every name either operand gives, nothing else. -/
def MergedNames (res l r : List (Option String)) : Prop :=
  res.length = l.length ∧ ∀ (i : Nat) (s : String), res[i]? = some (some s) ↔
    (l[i]? = some (some s) ∨ r[i]? = some (some s))

theorem merged_axis {a b : AxisSt} (ha : a.Ok) (hb : b.Ok) (hlen : a.len = b.len)
    (hag : NamesAgree a.getNames b.getNames) :
    ∃ c, AxisSt.setNames ⟨a.len, none⟩ (asAssign (mergeNames a.getNamesNoGen b.getNamesNoGen)) = .ok c ∧
      c.Ok ∧ c.len = a.len ∧ MergedNames c.getNames a.getNames b.getNames := by
  have la := ha.length_getNames
  have lb := hb.length_getNames
  have set : ∀ l : List (Option String), l.length = a.len → l.reduceOption.Nodup →
      MergedNames l a.getNames b.getNames →
      ∃ c, AxisSt.setNames ⟨a.len, none⟩ (.list l) = .ok c ∧ c.Ok ∧ c.len = a.len ∧
        MergedNames c.getNames a.getNames b.getNames := by
    intro l h1 h2 h3
    rw [setNames_list_eq, if_pos ⟨h1, h2⟩]
    exact ⟨_, rfl, mk_ok h1 h2, rfl, h3⟩
  have hnone : ∀ {c : AxisSt}, c.tbl = none → ∀ (i : Nat) (s : String), c.getNames[i]? ≠ some (some s) := by
    intro c hc i s hi
    have := default_of_none hc _ (List.mem_of_getElem? hi); cases this
  cases h1 : a.tbl with
  | none =>
    cases h2 : b.tbl with
    | none =>
      simp only [AxisSt.getNamesNoGen, h1, h2, Option.map_none, mergeNames, asAssign, AxisSt.setNames]
      refine ⟨_, rfl, none_ok _, rfl, ?_, ?_⟩
      · rw [la]; simp [AxisSt.getNames]
      · intro i s
        constructor
        · intro h; exact absurd h (hnone rfl i s)
        · rintro (h | h)
          · exact absurd h (hnone h1 i s)
          · exact absurd h (hnone h2 i s)
    | some tb =>
      simp only [AxisSt.getNamesNoGen, h1, h2, Option.map_none, Option.map_some, mergeNames, asAssign]
      rw [← AxisSt.getNames_of_some h2]
      refine set _ (by rw [lb, hlen]) hb.reduceOption_nodup ⟨by rw [la, lb, hlen], ?_⟩
      intro i s
      exact ⟨Or.inr, fun h => h.elim (fun h => absurd h (hnone h1 i s)) id⟩
  | some ta =>
    cases h2 : b.tbl with
    | none =>
      simp only [AxisSt.getNamesNoGen, h1, h2, Option.map_none, Option.map_some, mergeNames, asAssign]
      rw [← AxisSt.getNames_of_some h1]
      refine set _ la ha.reduceOption_nodup ⟨rfl, ?_⟩
      intro i s
      exact ⟨Or.inl, fun h => h.elim id (fun h => absurd h (hnone h2 i s))⟩
    | some tb =>
      simp only [AxisSt.getNamesNoGen, h1, h2, Option.map_some, mergeNames, asAssign]
      rw [← AxisSt.getNames_of_some h1, ← AxisSt.getNames_of_some h2]
      obtain ⟨m1, m2, m3⟩ := C15_merge (by rw [la, lb, hlen]) ha.reduceOption_nodup hb.reduceOption_nodup hag
      exact set _ (by rw [m1, la]) m3 ⟨m1, m2⟩

/-- The rule for names in a binary operation that is not in place. -/
def BinaryNamesOk (inplace : Bool) (o other : Obj V) : Prop :=
  let p := NamesAgree o.pts.getNames other.pts.getNames
  let f := NamesAgree o.fts.getNames other.fts.getNames
  (p ∧ f) ∨ (inplace = false ∧ f ∧ ¬ p ∧ NamesDisjoint o.pts.getNames other.pts.getNames) ∨
    (inplace = false ∧ p ∧ ¬ f ∧ NamesDisjoint o.fts.getNames other.fts.getNames)

theorem elem_zipWith (f : V → V → V) {a b : Obj V} (ha : a.WF) (hb : b.WF) (hp : a.pts.len = b.pts.len)
    (hf : a.fts.len = b.fts.len) (i j : Nat) (hi : i < a.pts.len) (hj : j < a.fts.len) :
    ∃ x y, a.elem? i j = some x ∧ b.elem? i j = some y ∧
      ((List.zipWith (List.zipWith f) a.data b.data)[i]?).bind (·[j]?) = some (f x y) := by
  obtain ⟨r1, h1, _, l1⟩ := ha.vector_point hi
  obtain ⟨r2, h2, _, l2⟩ := hb.vector_point (i := i) (by rw [← hp]; exact hi)
  have e1 : r1[j]? = some r1[j] := List.getElem?_eq_getElem (by omega)
  have e2 : r2[j]? = some r2[j] := List.getElem?_eq_getElem (by omega)
  refine ⟨r1[j], r2[j], by simp [Obj.elem?, h1], by simp [Obj.elem?, h2], ?_⟩
  rw [List.getElem?_zipWith, h1, h2]
  simp [List.getElem?_zipWith, e1, e2]

theorem zipWith_shape (f : V → V → V) {a b : Obj V} (ha : a.WF) (hb : b.WF) (hp : a.pts.len = b.pts.len)
    (hf : a.fts.len = b.fts.len) :
    (List.zipWith (List.zipWith f) a.data b.data).length = a.pts.len ∧
    ∀ r ∈ List.zipWith (List.zipWith f) a.data b.data, r.length = a.fts.len := by
  refine ⟨by rw [List.length_zipWith, ha.rows, hb.rows, hp]; simp, ?_⟩
  intro r hr
  rw [List.mem_iff_getElem?] at hr
  obtain ⟨i, hi⟩ := hr
  rw [List.getElem?_zipWith] at hi
  cases h1 : a.data[i]? with
  | none => rw [h1] at hi; simp at hi
  | some r1 =>
    cases h2 : b.data[i]? with
    | none => rw [h1, h2] at hi; simp at hi
    | some r2 =>
      rw [h1, h2] at hi; simp at hi; subst hi
      rw [List.length_zipWith, ha.cols r1 (List.mem_of_getElem? h1), hb.cols r2 (List.mem_of_getElem? h2), hf]
      simp

/-- C15. A binary operation on two objects is accepted exactly when the shapes are equal and not
empty and the names agree – along both axes, or (not in place) along one axis while the other axes
share no name at all.  The result holds the operation applied element by element; along an axis
whose names agree it carries each side's names, along the other it has none; names are distinct. -/
theorem C15_binary_operation (f : V → V → V) (inplace : Bool) {o other : Obj V} (h : o.WF)
    (ho : other.WF) :
    ((∃ r, o.binaryOp f inplace other = .ok r) ↔
      (o.pts.len = other.pts.len ∧ o.fts.len = other.fts.len ∧ 0 < o.pts.len ∧ 0 < o.fts.len ∧
        BinaryNamesOk inplace o other)) ∧
    (∀ r, o.binaryOp f inplace other = .ok r →
      r.WF ∧ r.pts.len = o.pts.len ∧ r.fts.len = o.fts.len ∧
      (∀ i j, i < o.pts.len → j < o.fts.len → ∃ x y, o.elem? i j = some x ∧
        other.elem? i j = some y ∧ r.elem? i j = some (f x y)) ∧
      (NamesAgree o.pts.getNames other.pts.getNames →
        MergedNames r.pts.getNames o.pts.getNames other.pts.getNames) ∧
      (NamesAgree o.fts.getNames other.fts.getNames →
        MergedNames r.fts.getNames o.fts.getNames other.fts.getNames) ∧
      (¬ NamesAgree o.pts.getNames other.pts.getNames → ∀ n ∈ r.pts.getNames, n = none) ∧
      (¬ NamesAgree o.fts.getNames other.fts.getNames → ∀ n ∈ r.fts.getNames, n = none)) := by
  have ep := namesEqualCheck_iff h.pts ho.pts
  have ef := namesEqualCheck_iff h.fts ho.fts
  have dp := namesDisjointCheck_iff o.pts other.pts
  have df := namesDisjointCheck_iff o.fts other.fts
  unfold binaryOp
  by_cases c1 : o.pts.len = other.pts.len
  swap
  · simp [c1]
  by_cases c2 : o.fts.len = other.fts.len
  swap
  · simp [c1, c2]
  by_cases c3 : o.pts.len = 0 ∨ o.fts.len = 0
  · rw [if_neg (by simpa using c1), if_neg (by simpa using c2), if_pos c3]
    refine ⟨⟨?_, ?_⟩, ?_⟩
    · rintro ⟨r, hr⟩; cases hr
    · rintro ⟨_, _, h3, h4, _⟩; omega
    · intro r hr; cases hr
  rw [if_neg (by simpa using c1), if_neg (by simpa using c2), if_neg c3]
  have hpos : 0 < o.pts.len ∧ 0 < o.fts.len := by omega
  have shape := zipWith_shape f h ho c1 c2
  -- building the result
  have finish : ∀ (P F : AxisSt), P.Ok → P.len = o.pts.len → F.Ok → F.len = o.fts.len →
      ∀ r : Obj V, (⟨List.zipWith (List.zipWith f) o.data other.data, P, F⟩ : Obj V) = r →
      r.WF ∧ r.pts.len = o.pts.len ∧ r.fts.len = o.fts.len ∧
      (∀ i j, i < o.pts.len → j < o.fts.len → ∃ x y, o.elem? i j = some x ∧
        other.elem? i j = some y ∧ r.elem? i j = some (f x y)) := by
    rintro P F hP lP hF lF r rfl
    refine ⟨⟨by simp only []; rw [lP]; exact shape.1, by simp only []; rw [lF]; exact shape.2, hP, hF⟩, lP, lF, ?_⟩
    intro i j hi hj
    exact elem_zipWith f h ho c1 c2 i j hi hj
  have noneAxis : ∀ n : Nat, AxisSt.setNames ⟨n, none⟩ (asAssign none) = .ok ⟨n, none⟩ := fun _ => rfl
  by_cases P : NamesAgree o.pts.getNames other.pts.getNames <;>
    by_cases F : NamesAgree o.fts.getNames other.fts.getNames
  · have bp := ep.2 P
    have bf := ef.2 F
    obtain ⟨cp, p1, p2, p3, p4⟩ := merged_axis h.pts ho.pts c1 P
    obtain ⟨cf, f1, f2, f3, f4⟩ := merged_axis h.fts ho.fts c2 F
    simp only [binaryNames, bp, bf, Bool.not_true, Bool.and_false, Bool.false_eq_true, if_false,
      bind, Except.bind, p1, f1, pure, Except.pure]
    refine ⟨⟨fun _ => ⟨c1, c2, hpos.1, hpos.2, Or.inl ⟨P, F⟩⟩, fun _ => ⟨_, rfl⟩⟩, ?_⟩
    intro r hr
    simp only [Except.ok.injEq] at hr
    obtain ⟨w1, w2, w3, w4⟩ := finish cp cf p2 p3 f2 f3 r hr
    subst hr
    exact ⟨w1, w2, w3, w4, fun _ => p4, fun _ => f4, fun hn => absurd P hn, fun hn => absurd F hn⟩
  · have bp := ep.2 P
    have bf : namesEqualCheck o.fts other.fts = false := by
      cases hb : namesEqualCheck o.fts other.fts with
      | false => rfl
      | true => exact absurd (ef.1 hb) F
    cases inplace with
    | true =>
      simp only [binaryNames, bf, Bool.not_false, Bool.and_true, if_true, bind, Except.bind]
      refine ⟨⟨?_, ?_⟩, by intro r hr; simp at hr⟩
      · rintro ⟨r, hr⟩; simp at hr
      · rintro ⟨_, _, _, _, hb⟩
        rcases hb with hb | hb | hb
        · exact absurd hb.2 F
        · cases hb.1
        · cases hb.1
    | false =>
      simp only [binaryNames, bp, bf, Bool.not_true, Bool.not_false, Bool.and_false, Bool.and_true,
        Bool.false_and, Bool.false_eq_true, if_false, if_true]
      by_cases D : NamesDisjoint o.fts.getNames other.fts.getNames
      · obtain ⟨cp, p1, p2, p3, p4⟩ := merged_axis h.pts ho.pts c1 P
        simp only [df.2 D, if_true, bind, Except.bind, p1, noneAxis, pure, Except.pure]
        refine ⟨⟨fun _ => ⟨c1, c2, hpos.1, hpos.2, Or.inr (Or.inr ⟨rfl, P, F, D⟩)⟩, fun _ => ⟨_, rfl⟩⟩, ?_⟩
        intro r hr
        simp only [Except.ok.injEq] at hr
        obtain ⟨w1, w2, w3, w4⟩ := finish cp ⟨o.fts.len, none⟩ p2 p3 (none_ok _) rfl r hr
        subst hr
        refine ⟨w1, w2, w3, w4, fun _ => p4, fun hn => absurd hn F, fun hn => absurd P hn, fun _ => ?_⟩
        exact default_of_none rfl
      · have : namesDisjointCheck o.fts other.fts = false := by
          cases hb : namesDisjointCheck o.fts other.fts with
          | false => rfl
          | true => exact absurd (df.1 hb) D
        simp only [this, Bool.false_eq_true, if_false, bind, Except.bind]
        refine ⟨⟨?_, ?_⟩, by intro r hr; simp at hr⟩
        · rintro ⟨r, hr⟩; simp at hr
        · rintro ⟨_, _, _, _, hb⟩
          rcases hb with hb | hb | hb
          · exact absurd hb.2 F
          · exact absurd hb.2.1 F
          · exact absurd hb.2.2.2 D
  · have bf := ef.2 F
    have bp : namesEqualCheck o.pts other.pts = false := by
      cases hb : namesEqualCheck o.pts other.pts with
      | false => rfl
      | true => exact absurd (ep.1 hb) P
    cases inplace with
    | true =>
      simp only [binaryNames, bf, bp, Bool.not_false, Bool.not_true, Bool.and_true, Bool.and_false,
        Bool.false_eq_true, if_false, if_true, bind, Except.bind]
      refine ⟨⟨?_, ?_⟩, by intro r hr; simp at hr⟩
      · rintro ⟨r, hr⟩; simp at hr
      · rintro ⟨_, _, _, _, hb⟩
        rcases hb with hb | hb | hb
        · exact absurd hb.1 P
        · cases hb.1
        · cases hb.1
    | false =>
      simp only [binaryNames, bp, bf, Bool.not_true, Bool.not_false, Bool.and_false, Bool.and_true,
        Bool.false_and, Bool.false_eq_true, if_false, if_true]
      by_cases D : NamesDisjoint o.pts.getNames other.pts.getNames
      · obtain ⟨cf, f1, f2, f3, f4⟩ := merged_axis h.fts ho.fts c2 F
        simp only [dp.2 D, if_true, bind, Except.bind, f1, noneAxis, pure, Except.pure]
        refine ⟨⟨fun _ => ⟨c1, c2, hpos.1, hpos.2, Or.inr (Or.inl ⟨rfl, F, P, D⟩)⟩, fun _ => ⟨_, rfl⟩⟩, ?_⟩
        intro r hr
        simp only [Except.ok.injEq] at hr
        obtain ⟨w1, w2, w3, w4⟩ := finish ⟨o.pts.len, none⟩ cf (none_ok _) rfl f2 f3 r hr
        subst hr
        refine ⟨w1, w2, w3, w4, fun hn => absurd hn P, fun _ => f4, fun _ => ?_, fun hn => absurd F hn⟩
        exact default_of_none rfl
      · have : namesDisjointCheck o.pts other.pts = false := by
          cases hb : namesDisjointCheck o.pts other.pts with
          | false => rfl
          | true => exact absurd (dp.1 hb) D
        simp only [this, Bool.false_eq_true, if_false, bind, Except.bind]
        refine ⟨⟨?_, ?_⟩, by intro r hr; simp at hr⟩
        · rintro ⟨r, hr⟩; simp at hr
        · rintro ⟨_, _, _, _, hb⟩
          rcases hb with hb | hb | hb
          · exact absurd hb.1 P
          · exact absurd hb.2.2.2 D
          · exact absurd hb.2.1 P
  · have bf : namesEqualCheck o.fts other.fts = false := by
      cases hb : namesEqualCheck o.fts other.fts with
      | false => rfl
      | true => exact absurd (ef.1 hb) F
    have bp : namesEqualCheck o.pts other.pts = false := by
      cases hb : namesEqualCheck o.pts other.pts with
      | false => rfl
      | true => exact absurd (ep.1 hb) P
    cases inplace <;>
    · simp only [binaryNames, bp, bf, Bool.not_false, Bool.and_true, Bool.true_and, Bool.false_and,
        Bool.false_eq_true, if_false, if_true, bind, Except.bind]
      refine ⟨⟨?_, ?_⟩, by intro r hr; simp at hr⟩
      · rintro ⟨r, hr⟩; simp at hr
      · rintro ⟨_, _, _, _, hb⟩
        rcases hb with hb | hb | hb
        · exact absurd hb.1 P
        · exact absurd hb.2.1 F
        · exact absurd hb.2.1 P

/-! ### The hypotheses are met -/

/-- A second 3×2 object whose names complete those of `exObj`. -/
def exObj2 : Obj Int := ⟨[[10, 20], [30, 40], [50, 60]], ⟨3, none⟩,
  ⟨2, some ⟨[("g", 1)], [none, some "g"]⟩⟩⟩

theorem exObj2_wf : exObj2.WF where
  rows := rfl
  cols := by decide
  pts := none_ok 3
  fts := by
    intro t ht; simp only [exObj2, Option.some.injEq] at ht; subst ht
    exact namedPairs_ok (l := [none, some "g"]) (by decide)

example : (exObj.binaryOp (· + ·) false exObj2).map (fun r => (r.data, r.pts.getNames, r.fts.getNames)) =
    .ok ([[11, 22], [33, 44], [55, 66]], [some "a", some "b", some "c"], [some "f", some "g"]) := by
  decide
example : inconsistentNames [some "f", none] [none, some "g"] = [] := by decide
example : inconsistentNames [some "f", none] [none, some "f"] ≠ [] := by decide

end Nimble
