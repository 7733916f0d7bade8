import Verif.Model.Heap
import Verif.Lemmas.Py
import Mathlib.Data.List.Range

/-!
# C17: results of arithmetic are independent of their operands

`valueStep` is the specification: every object is a value of its own (a shape and elements), an
operation changes the object it is applied to and nothing else.
-/

namespace Nimble
namespace Mem
variable {V : Type}

/-! ## Specification -/

/-- Lookup of an object. -/
def getTab (w : List (Tab V)) (i : Nat) : Res (Tab V) :=
  match w[i]? with
  | some t => .ok t
  | none => .error .IndexError

/-- One operation on independent values. -/
def valueStep (w : List (Tab V)) : HOp V → Res (List (Tab V))
  | .new ncol data =>
    if data.all (fun r => decide (r.length = ncol)) then .ok (w ++ [⟨(data.length, ncol), data⟩])
    else .error .InvalidArgumentValue
  | .copy i => do
    let t ← getTab w i
    return w ++ [t]
  | .binop i j f => do
    let t ← getTab w i
    let u ← getTab w j
    if t.shape ≠ u.shape then .error .InvalidArgumentValue
    else return w ++ [⟨t.shape, List.zipWith (List.zipWith f) t.data u.data⟩]
  | .ibinop i j f => do
    let t ← getTab w i
    let u ← getTab w j
    if t.shape ≠ u.shape then .error .InvalidArgumentValue
    else return w.set i ⟨t.shape, List.zipWith (List.zipWith f) t.data u.data⟩
  | .scalar i f => do
    let t ← getTab w i
    return w ++ [⟨t.shape, t.data.map (List.map f)⟩]
  | .iscalar i f => do
    let t ← getTab w i
    return w.set i ⟨t.shape, t.data.map (List.map f)⟩
  | .setitem i x y v => do
    let t ← getTab w i
    if x < t.shape.1 ∧ y < t.shape.2 then
      return w.set i ⟨t.shape, t.data.modify x (fun r => r.set y v)⟩
    else .error .IndexError
  | .transform i f => do
    let t ← getTab w i
    return w.set i ⟨t.shape, t.data.map (List.map f)⟩
  | .permute i ax order => do
    let t ← getTab w i
    if order.isPerm (List.range (sizeOf t.shape ax)) then
      return w.set i ⟨t.shape, Obj.permuteData ax t.data order⟩
    else .error .IndexError
  | .extract i ax tgt => do
    let t ← getTab w i
    if goodTargets (sizeOf t.shape ax) tgt then
      return w.set i ⟨setSize t.shape ax (sizeOf t.shape ax - tgt.length),
          Obj.restData ax (sizeOf t.shape ax) t.data tgt⟩ ++
        [⟨setSize t.shape ax tgt.length, Obj.selData ax t.data tgt⟩]
    else .error .IndexError
  | .delete i ax tgt => do
    let t ← getTab w i
    if goodTargets (sizeOf t.shape ax) tgt then
      return w.set i ⟨setSize t.shape ax (sizeOf t.shape ax - tgt.length),
          Obj.restData ax (sizeOf t.shape ax) t.data tgt⟩
    else .error .IndexError
  | .retain i ax tgt => do
    let t ← getTab w i
    if goodTargets (sizeOf t.shape ax) tgt then
      return w.set i ⟨setSize t.shape ax tgt.length, Obj.selData ax t.data tgt⟩
    else .error .IndexError
  | .insert i ax before j => do
    let t ← getTab w i
    let u ← getTab w j
    if before ≤ sizeOf t.shape ax ∧ sizeOf t.shape ax.off = sizeOf u.shape ax.off then
      return w.set i ⟨setSize t.shape ax (sizeOf t.shape ax + sizeOf u.shape ax),
        Obj.insertData ax (sizeOf t.shape ax) t.data u.data before⟩
    else .error .InvalidArgumentValue
  | .transpose i => do
    let t ← getTab w i
    return w.set i ⟨(t.shape.2, t.shape.1), Obj.transposeData t.shape.2 t.data⟩

/-- A history on independent values. -/
def valueRun (w : List (Tab V)) : List (HOp V) → List (Tab V)
  | [] => w
  | op :: ops => match valueStep w op with
    | .ok w' => valueRun w' ops
    | .error _ => valueRun w ops

/-! ## The invariant -/

/-- No two objects share `_data` or rows, no object has a row twice; addresses are in use. Nothing is
said about sharing of `_dims`. -/
structure HInv (h : Heap V) : Prop where
  sep : ∀ (i j : Nat) (o p : HObj), h.objs[i]? = some o → h.objs[j]? = some p → i ≠ j →
    o.data ≠ p.data ∧ ∀ a ∈ h.outer o.data, a ∉ h.outer p.data
  ok : ∀ (i : Nat) (o : HObj), h.objs[i]? = some o → o.data < h.nOuter ∧ o.dims < h.nDims ∧
    (h.outer o.data).Nodup ∧ ∀ a ∈ h.outer o.data, a < h.nRows

namespace Heap

theorem put_self {A : Type} (m : Nat → A) (a : Nat) (v : A) : put m a v a = v := if_pos rfl
theorem put_ne {A : Type} (m : Nat → A) {a b : Nat} (v : A) (h : b ≠ a) : put m a v b = m b := if_neg h

theorem nodup_pick {A : Type} {l : List A} {idxs : List Nat} (hl : l.Nodup) (hi : idxs.Nodup) :
    (pick l idxs).Nodup := by
  unfold pick
  refine List.Nodup.filterMap ?_ hi
  intro a b x ha hb
  have ha' := Option.mem_def.1 ha
  have hb' := Option.mem_def.1 hb
  obtain ⟨h1, e1⟩ := List.getElem?_eq_some_iff.1 ha'
  obtain ⟨h2, e2⟩ := List.getElem?_eq_some_iff.1 hb'
  exact (List.Nodup.getElem_inj_iff hl).1 (e1.trans e2.symm)

/-- New rows. -/
theorem allocRows_spec {h : Heap V} (hi : HInv h) (vs : List (List V)) :
    HInv (h.allocRows vs).1 ∧ (h.allocRows vs).1.abs = h.abs ∧
    (h.allocRows vs).2.map (h.allocRows vs).1.rows = vs ∧ (h.allocRows vs).2.Nodup ∧
    (∀ a ∈ (h.allocRows vs).2, h.nRows ≤ a ∧ a < (h.allocRows vs).1.nRows) ∧
    (∀ a, a < h.nRows → (h.allocRows vs).1.rows a = h.rows a) := by
  have hr : ∀ a, a < h.nRows → (h.allocRows vs).1.rows a = h.rows a := fun a ha => if_pos ha
  refine ⟨⟨hi.sep, ?_⟩, ?_, ?_, List.nodup_range', ?_, hr⟩
  · intro i o ho
    obtain ⟨a, b, c, d⟩ := hi.ok i o ho
    refine ⟨a, b, c, fun x hx => ?_⟩
    have := d x hx
    show x < h.nRows + vs.length
    omega
  · unfold abs
    refine List.map_congr_left (fun o ho => ?_)
    obtain ⟨i, hio⟩ := List.mem_iff_getElem?.1 ho
    obtain ⟨_, _, _, d⟩ := hi.ok i o hio
    unfold tab contents
    congr 1
    exact List.map_congr_left (fun x hx => hr x (d x hx))
  · refine List.ext_getElem? (fun k => ?_)
    rw [List.getElem?_map]
    by_cases hk : k < vs.length
    · show Option.map _ ((List.range' h.nRows vs.length)[k]?) = _
      rw [List.getElem?_range' hk]
      simp only [Option.map_some, Nat.one_mul]
      show some (if _ then _ else _) = _
      rw [if_neg (by omega), Nat.add_sub_cancel_left, List.getElem?_eq_getElem hk]
      rfl
    · show Option.map _ ((List.range' h.nRows vs.length)[k]?) = _
      rw [List.getElem?_eq_none (by rw [List.length_range']; omega), List.getElem?_eq_none (by omega)]
      rfl
  · intro a ha
    have := List.mem_range'_1.1 ha
    exact ⟨this.1, this.2⟩

/-- New `_dims`. -/
theorem allocDims_spec {h : Heap V} (hi : HInv h) (d : Nat × Nat) :
    HInv (h.allocDims d).1 ∧ (h.allocDims d).1.abs = h.abs ∧
    (h.allocDims d).2 < (h.allocDims d).1.nDims ∧ (h.allocDims d).1.dims (h.allocDims d).2 = d := by
  refine ⟨⟨hi.sep, ?_⟩, ?_, Nat.lt_succ_self _, put_self ..⟩
  · intro i o ho
    obtain ⟨a, b, c, e⟩ := hi.ok i o ho
    exact ⟨a, Nat.lt_succ_of_lt b, c, e⟩
  · unfold abs
    refine List.map_congr_left (fun o ho => ?_)
    obtain ⟨i, hio⟩ := List.mem_iff_getElem?.1 ho
    have := (hi.ok i o hio).2.1
    unfold tab
    congr 1
    exact put_ne _ _ (by omega)

/-- A new object. -/
theorem pushAt_spec {h : Heap V} (hi : HInv h) (vs : List (List V)) {da : Nat} (hd : da < h.nDims) :
    HInv (h.pushAt vs da) ∧ (h.pushAt vs da).abs = h.abs ++ [⟨h.dims da, vs⟩] := by
  obtain ⟨h1, h2, h3, h4, h5, h6⟩ := allocRows_spec hi vs
  unfold pushAt
  obtain ⟨r, hr⟩ : ∃ r, r = h.allocRows vs := ⟨_, rfl⟩
  rw [← hr] at h1 h2 h3 h4 h5 h6 ⊢
  have ho : r.1.objs = h.objs := by rw [hr]; rfl
  have hd' : r.1.dims = h.dims ∧ r.1.nDims = h.nDims := by rw [hr]; exact ⟨rfl, rfl⟩
  have hout : r.1.outer = h.outer := by rw [hr]; rfl
  have hold : ∀ (i : Nat) (o : HObj), r.1.objs[i]? = some o → put r.1.outer r.1.nOuter r.2 o.data = r.1.outer o.data :=
    fun i o hio => put_ne _ _ (by have := (h1.ok i o hio).1; omega)
  have hfresh : ∀ (i : Nat) (o : HObj), r.1.objs[i]? = some o → ∀ a ∈ r.1.outer o.data, a ∉ r.2 := by
    intro i o hio a ha hm
    rw [ho] at hio
    rw [hout] at ha
    have b1 := (hi.ok i o hio).2.2.2 a ha
    have b2 := (h5 a hm).1
    omega
  have hcase : ∀ (i : Nat) (o : HObj), (r.1.objs ++ [(⟨r.1.nOuter, da⟩ : HObj)])[i]? = some o →
      (i < r.1.objs.length ∧ r.1.objs[i]? = some o) ∨ (i = r.1.objs.length ∧ o = ⟨r.1.nOuter, da⟩) := by
    intro i o hio
    rcases Nat.lt_trichotomy i r.1.objs.length with hlt | heq | hgt
    · rw [List.getElem?_append_left hlt] at hio
      exact Or.inl ⟨hlt, hio⟩
    · subst heq
      rw [List.getElem?_concat_length] at hio
      exact Or.inr ⟨rfl, (Option.some.inj hio).symm⟩
    · rw [List.getElem?_eq_none (by simp; omega)] at hio
      cases hio
  refine ⟨⟨?_, ?_⟩, ?_⟩
  · intro i j o p hio hjp hij
    show o.data ≠ p.data ∧ ∀ a ∈ put r.1.outer r.1.nOuter r.2 o.data, a ∉ put r.1.outer r.1.nOuter r.2 p.data
    rcases hcase i o hio with ⟨_, hio'⟩ | ⟨ei, eo⟩ <;> rcases hcase j p hjp with ⟨_, hjp'⟩ | ⟨ej, ep⟩
    · rw [hold i o hio', hold j p hjp']
      exact h1.sep i j o p hio' hjp' hij
    · subst ep
      rw [hold i o hio', put_self]
      exact ⟨by have := (h1.ok i o hio').1; dsimp only; omega, hfresh i o hio'⟩
    · subst eo
      rw [hold j p hjp', put_self]
      exact ⟨by have := (h1.ok j p hjp').1; dsimp only; omega, fun a ha hm => hfresh j p hjp' a hm ha⟩
    · omega
  · intro i o hio
    show o.data < r.1.nOuter + 1 ∧ o.dims < r.1.nDims ∧ (put r.1.outer r.1.nOuter r.2 o.data).Nodup ∧
      ∀ a ∈ put r.1.outer r.1.nOuter r.2 o.data, a < r.1.nRows
    rcases hcase i o hio with ⟨_, hio'⟩ | ⟨_, eo⟩
    · rw [hold i o hio']
      obtain ⟨a, b, c, d⟩ := h1.ok i o hio'
      exact ⟨by omega, b, c, d⟩
    · subst eo
      rw [put_self]
      exact ⟨by dsimp only; omega, by rw [hd'.2]; exact hd, h4, fun a ha => (h5 a ha).2⟩
  · show List.map _ (r.1.objs ++ [_]) = _
    rw [List.map_append, ← h2]
    congr 1
    · unfold abs
      refine List.map_congr_left (fun o ho => ?_)
      obtain ⟨i, hio⟩ := List.mem_iff_getElem?.1 ho
      show (⟨_, List.map _ (put r.1.outer r.1.nOuter r.2 o.data)⟩ : Tab V) = _
      rw [hold i o hio]
      rfl
    · show [(⟨_, List.map _ (put r.1.outer r.1.nOuter r.2 r.1.nOuter)⟩ : Tab V)] = _
      rw [put_self]
      show [(⟨r.1.dims da, List.map r.1.rows r.2⟩ : Tab V)] = _
      rw [h3, hd'.1]

theorem push_spec {h : Heap V} (hi : HInv h) (vs : List (List V)) (d : Nat × Nat) :
    HInv (h.push vs d) ∧ (h.push vs d).abs = h.abs ++ [⟨d, vs⟩] := by
  obtain ⟨a, b, c, e⟩ := allocDims_spec hi d
  obtain ⟨f, g⟩ := pushAt_spec a vs c
  unfold push
  refine ⟨f, ?_⟩
  dsimp only
  rw [g, b, e]

theorem getElem?_mod {A : Type} (l : List A) (i : Nat) (g : A → A) (k : Nat) :
    (l.modify i g)[k]? = (l[k]?).map (fun a => if i = k then g a else a) := by
  rw [List.getElem?_modify]
  rfl

theorem map_modify_comm {A B : Type} {f : A → B} {g : A → A} {g' : B → B} (l : List A) (i : Nat)
    (h1 : ∀ k a, l[k]? = some a → k = i → f (g a) = g' (f a)) : (l.modify i g).map f = (l.map f).modify i g' := by
  refine List.ext_getElem? (fun k => ?_)
  simp only [List.getElem?_map, getElem?_mod]
  cases ha : l[k]? with
  | none => rfl
  | some a =>
    by_cases hk : i = k
    · simp only [Option.map_some, if_pos hk]
      rw [h1 k a ha hk.symm]
    · simp only [Option.map_some, if_neg hk]

/-- `self._data = [...]`. -/
theorem assignOuter_spec {h : Heap V} (hi : HInv h) (i : Nat) {as : List Nat} (hn : as.Nodup)
    (hb : ∀ a ∈ as, a < h.nRows)
    (hs : ∀ (j : Nat) (p : HObj), h.objs[j]? = some p → j ≠ i → ∀ a ∈ as, a ∉ h.outer p.data) :
    HInv (h.assignOuter i as) ∧
    (h.assignOuter i as).abs = h.abs.modify i (fun t => { t with data := as.map h.rows }) := by
  have hold : ∀ (j : Nat) (p : HObj), h.objs[j]? = some p → put h.outer h.nOuter as p.data = h.outer p.data :=
    fun j p hjp => put_ne _ _ (by have := (hi.ok j p hjp).1; omega)
  have hcase : ∀ (j : Nat) (p : HObj), (h.objs.modify i (fun o => { o with data := h.nOuter }))[j]? = some p →
      (j ≠ i ∧ h.objs[j]? = some p) ∨ (j = i ∧ p.data = h.nOuter ∧ p.dims < h.nDims) := by
    intro j p hjp
    rw [getElem?_mod] at hjp
    obtain ⟨q, hq, e⟩ := Option.map_eq_some_iff.1 hjp
    by_cases hij : i = j
    · rw [if_pos hij] at e
      subst e
      exact Or.inr ⟨hij.symm, rfl, (hi.ok j q hq).2.1⟩
    · rw [if_neg hij] at e
      subst e
      exact Or.inl ⟨Ne.symm hij, hq⟩
  refine ⟨⟨?_, ?_⟩, ?_⟩
  · intro j k o p hjo hkp hjk
    show o.data ≠ p.data ∧ ∀ a ∈ put h.outer h.nOuter as o.data, a ∉ put h.outer h.nOuter as p.data
    rcases hcase j o hjo with ⟨n1, e1⟩ | ⟨n1, e1, _⟩ <;> rcases hcase k p hkp with ⟨n2, e2⟩ | ⟨n2, e2, _⟩
    · rw [hold j o e1, hold k p e2]
      exact hi.sep j k o p e1 e2 hjk
    · rw [hold j o e1, e2, put_self]
      exact ⟨by have := (hi.ok j o e1).1; omega, fun a ha hm => hs j o e1 n1 a hm ha⟩
    · rw [hold k p e2, e1, put_self]
      exact ⟨by have := (hi.ok k p e2).1; omega, fun a ha => hs k p e2 n2 a ha⟩
    · omega
  · intro j p hjp
    show p.data < h.nOuter + 1 ∧ p.dims < h.nDims ∧ (put h.outer h.nOuter as p.data).Nodup ∧
      ∀ a ∈ put h.outer h.nOuter as p.data, a < h.nRows
    rcases hcase j p hjp with ⟨n1, e1⟩ | ⟨n1, e1, hd⟩
    · rw [hold j p e1]
      obtain ⟨a, b, c, d⟩ := hi.ok j p e1
      exact ⟨by omega, b, c, d⟩
    · rw [e1, put_self]
      exact ⟨by omega, hd, hn, hb⟩
  · have : (h.assignOuter i as).abs
        = (h.objs.modify i (fun o => { o with data := h.nOuter })).map (h.assignOuter i as).tab := rfl
    rw [this]
    have e : ∀ o, (h.assignOuter i as).tab o
        = ⟨h.dims o.dims, (put h.outer h.nOuter as o.data).map h.rows⟩ := fun _ => rfl
    rw [map_modify_comm (g' := fun t => { t with data := as.map h.rows })]
    · congr 1
      unfold abs
      refine List.map_congr_left (fun o ho => ?_)
      obtain ⟨j, hjo⟩ := List.mem_iff_getElem?.1 ho
      rw [e, hold j o hjo]
      rfl
    · intro k o hko hki
      rw [e, e]
      dsimp only
      rw [put_self]

theorem assignRows_spec {h : Heap V} (hi : HInv h) (i : Nat) (vs : List (List V)) :
    HInv (h.assignRows i vs) ∧
    (h.assignRows i vs).abs = h.abs.modify i (fun t => { t with data := vs }) := by
  obtain ⟨h1, h2, h3, h4, h5, h6⟩ := allocRows_spec hi vs
  obtain ⟨a, b⟩ := assignOuter_spec h1 i h4 (fun a ha => (h5 a ha).2) (by
    intro j p hjp _ a ha hm
    have b1 := (hi.ok j p hjp).2.2.2 a hm
    have b2 := (h5 a ha).1
    omega)
  unfold assignRows
  refine ⟨a, ?_⟩
  dsimp only
  rw [b, h2, h3]

theorem assignDims_spec {h : Heap V} (hi : HInv h) (i : Nat) (d : Nat × Nat) :
    HInv (h.assignDims i d) ∧
    (h.assignDims i d).abs = h.abs.modify i (fun t => { t with shape := d }) := by
  have hcase : ∀ (j : Nat) (p : HObj), (h.objs.modify i (fun o => { o with dims := h.nDims }))[j]? = some p →
      ∃ q, h.objs[j]? = some q ∧ q.data = p.data ∧ p.dims < h.nDims + 1 := by
    intro j p hjp
    rw [getElem?_mod] at hjp
    obtain ⟨q, hq, e⟩ := Option.map_eq_some_iff.1 hjp
    refine ⟨q, hq, ?_⟩
    by_cases hij : i = j
    · rw [if_pos hij] at e
      subst e
      exact ⟨rfl, Nat.lt_succ_self _⟩
    · rw [if_neg hij] at e
      subst e
      exact ⟨rfl, Nat.lt_succ_of_lt (hi.ok j q hq).2.1⟩
  refine ⟨⟨?_, ?_⟩, ?_⟩
  · intro j k o p hjo hkp hjk
    obtain ⟨q1, e1, d1, _⟩ := hcase j o hjo
    obtain ⟨q2, e2, d2, _⟩ := hcase k p hkp
    rw [← d1, ← d2]
    exact hi.sep j k q1 q2 e1 e2 hjk
  · intro j p hjp
    obtain ⟨q1, e1, d1, b1⟩ := hcase j p hjp
    obtain ⟨a, b, c, e⟩ := hi.ok j q1 e1
    rw [← d1]
    exact ⟨a, b1, c, e⟩
  · have : (h.assignDims i d).abs
        = (h.objs.modify i (fun o => { o with dims := h.nDims })).map (h.assignDims i d).tab := rfl
    rw [this]
    have e : ∀ o, (h.assignDims i d).tab o = ⟨put h.dims h.nDims d o.dims, h.contents o⟩ := fun _ => rfl
    rw [map_modify_comm (g' := fun t => { t with shape := d })]
    · congr 1
      unfold abs
      refine List.map_congr_left (fun o ho => ?_)
      obtain ⟨j, hjo⟩ := List.mem_iff_getElem?.1 ho
      rw [e, put_ne _ _ (by have := (hi.ok j o hjo).2.1; omega)]
      rfl
    · intro k o hko hki
      rw [e, e]
      dsimp only
      rw [put_self]
      rfl

theorem reference_spec {h : Heap V} (hi : HInv h) (i : Nat) (vs : List (List V)) (d : Nat × Nat) :
    HInv (h.reference i vs d) ∧ (h.reference i vs d).abs = h.abs.modify i (fun _ => ⟨d, vs⟩) := by
  obtain ⟨a, b⟩ := assignRows_spec hi i vs
  obtain ⟨c, e⟩ := assignDims_spec a i d
  unfold reference
  refine ⟨c, ?_⟩
  rw [e, b, List.modify_modify_eq]
  rfl

/-- The `_dims` list of this object is its own. -/
def OwnDims (h : Heap V) (i : Nat) (o : HObj) : Prop := ∀ (j : Nat) (p : HObj), h.objs[j]? = some p → j ≠ i → p.dims ≠ o.dims

theorem storeDims_inv {h : Heap V} (hi : HInv h) (o : HObj) (d : Nat × Nat) : HInv (h.storeDims o d) :=
  ⟨hi.sep, hi.ok⟩

theorem storeDims_abs {h : Heap V} {i : Nat} {a b : Nat} (hio : h.objs[i]? = some ⟨a, b⟩) {o : HObj}
    (hb : o.dims = b) (hu : h.OwnDims i o) (d : Nat × Nat) :
    (h.storeDims o d).abs = h.abs.modify i (fun t => { t with shape := d }) := by
  refine List.ext_getElem? (fun k => ?_)
  rw [getElem?_mod]
  unfold abs
  rw [List.getElem?_map, List.getElem?_map]
  show Option.map (h.storeDims o d).tab h.objs[k]? = _
  cases hk : h.objs[k]? with
  | none => rfl
  | some p =>
    simp only [Option.map_some]
    congr 1
    show (⟨put h.dims o.dims d p.dims, h.contents p⟩ : Tab V) = _
    by_cases hik : i = k
    · subst hik
      rw [hio] at hk
      cases hk
      rw [if_pos rfl]
      dsimp only
      rw [← hb, put_self]
      rfl
    · rw [if_neg hik, put_ne _ _ (hu k p hk (Ne.symm hik))]
      rfl

theorem storeDims_data (h : Heap V) (o : HObj) (d : Nat × Nat) :
    (h.storeDims o d).abs.map Tab.data = h.abs.map Tab.data := by
  unfold abs
  rw [List.map_map, List.map_map]
  rfl

theorem get_abs {h : Heap V} {i : Nat} {o : HObj} (hio : h.objs[i]? = some o) :
    h.abs[i]? = some (h.tab o) := by
  unfold abs
  rw [List.getElem?_map, hio]
  rfl

theorem modify_set {A : Type} {w : List A} {i : Nat} {t : A} (ht : w[i]? = some t) (f : A → A) :
    w.modify i f = w.set i (f t) := by
  refine List.ext_getElem? (fun k => ?_)
  rw [getElem?_mod, List.getElem?_set]
  by_cases hk : i = k
  · subst hk
    have := (List.getElem?_eq_some_iff.1 ht).1
    rw [ht, if_pos rfl, if_pos this]
    simp
  · rw [if_neg hk]
    cases w[k]? with
    | none => rfl
    | some a => simp [hk]

/-- In-place change of the rows of one object. -/
theorem mapRows_spec {h : Heap V} (hi : HInv h) {i : Nat} {o : HObj} (hio : h.objs[i]? = some o)
    (g : List V → List V) {h' : Heap V}
    (hh : h' = { h with rows := fun a => if a ∈ h.outer o.data then g (h.rows a) else h.rows a }) :
    HInv h' ∧ h'.abs = h.abs.set i ⟨h.dims o.dims, (h.contents o).map g⟩ := by
  subst hh
  refine ⟨⟨hi.sep, hi.ok⟩, ?_⟩
  refine List.ext_getElem? (fun k => ?_)
  unfold abs
  rw [List.getElem?_map, List.getElem?_set, List.getElem?_map]
  show Option.map _ h.objs[k]? = _
  by_cases hk : i = k
  · subst hk
    have := (List.getElem?_eq_some_iff.1 hio).1
    rw [if_pos rfl, if_pos (by rw [List.length_map]; exact this), hio]
    simp only [Option.map_some]
    congr 1
    unfold tab contents
    congr 1
    rw [List.map_map]
    exact List.map_congr_left (fun a ha => if_pos ha)
  · rw [if_neg hk]
    cases hp : h.objs[k]? with
    | none => rfl
    | some p =>
      simp only [Option.map_some]
      congr 1
      unfold tab contents
      congr 1
      refine List.map_congr_left (fun a ha => if_neg ?_)
      exact (hi.sep k i p o hp hio (Ne.symm hk)).2 a ha

theorem permuteIn_spec {h : Heap V} (hi : HInv h) {i : Nat} {o : HObj} (hio : h.objs[i]? = some o)
    (ax : Ax) {order : List Nat} (hn : order.Nodup) :
    HInv (h.permuteIn o ax order) ∧
    (h.permuteIn o ax order).abs = h.abs.set i ⟨h.dims o.dims, Obj.permuteData ax (h.contents o) order⟩ := by
  cases ax with
  | feature => exact mapRows_spec hi hio (fun r => pick r order) rfl
  | point =>
    have hsub : ∀ a ∈ pick (h.outer o.data) order, a ∈ h.outer o.data := by
      intro a ha
      obtain ⟨k, _, hk⟩ := mem_pick.1 ha
      exact List.mem_of_getElem? hk
    have hself : ∀ (j : Nat) (p : HObj), h.objs[j]? = some p → j ≠ i →
        put h.outer o.data (pick (h.outer o.data) order) p.data = h.outer p.data :=
      fun j p hjp hji => put_ne _ _ (hi.sep j i p o hjp hio hji).1
    have heq : ∀ (p : HObj), h.objs[i]? = some p → p = o := by
      intro p hp
      rw [hio] at hp
      exact (Option.some.inj hp).symm
    refine ⟨⟨?_, ?_⟩, ?_⟩
    · intro j k p q hjp hkq hjk
      show p.data ≠ q.data ∧ ∀ a ∈ put h.outer o.data (pick (h.outer o.data) order) p.data,
        a ∉ put h.outer o.data (pick (h.outer o.data) order) q.data
      have hs := hi.sep j k p q hjp hkq hjk
      refine ⟨hs.1, ?_⟩
      by_cases hj : j = i
      · subst hj
        have := heq p hjp
        subst this
        rw [put_self, hself k q hkq (Ne.symm hjk)]
        exact fun a ha => hs.2 a (hsub a ha)
      · rw [hself j p hjp hj]
        by_cases hk : k = i
        · subst hk
          have := heq q hkq
          subst this
          rw [put_self]
          exact fun a ha hm => hs.2 a ha (hsub a hm)
        · rw [hself k q hkq hk]
          exact hs.2
    · intro j p hjp
      show p.data < h.nOuter ∧ p.dims < h.nDims ∧
        (put h.outer o.data (pick (h.outer o.data) order) p.data).Nodup ∧
        ∀ a ∈ put h.outer o.data (pick (h.outer o.data) order) p.data, a < h.nRows
      obtain ⟨a, b, c, d⟩ := hi.ok j p hjp
      by_cases hj : j = i
      · subst hj
        have := heq p hjp
        subst this
        rw [put_self]
        exact ⟨a, b, nodup_pick c hn, fun x hx => d x (hsub x hx)⟩
      · rw [hself j p hjp hj]
        exact ⟨a, b, c, d⟩
    · refine List.ext_getElem? (fun k => ?_)
      unfold abs
      rw [List.getElem?_map, List.getElem?_set, List.getElem?_map]
      show Option.map _ h.objs[k]? = _
      by_cases hk : i = k
      · subst hk
        have := (List.getElem?_eq_some_iff.1 hio).1
        rw [if_pos rfl, if_pos (by rw [List.length_map]; exact this), hio]
        simp only [Option.map_some]
        congr 1
        show (⟨_, List.map h.rows (put h.outer o.data (pick (h.outer o.data) order) o.data)⟩ : Tab V) = _
        rw [put_self, ← pick_map]
        rfl
      · rw [if_neg hk]
        cases hp : h.objs[k]? with
        | none => rfl
        | some p =>
          simp only [Option.map_some]
          congr 1
          show (⟨_, List.map h.rows (put h.outer o.data (pick (h.outer o.data) order) p.data)⟩ : Tab V) = _
          rw [hself k p hp (Ne.symm hk)]
          rfl

theorem setitemIn_spec {h : Heap V} (hi : HInv h) {i : Nat} {o : HObj} (hio : h.objs[i]? = some o)
    (x y : Nat) (v : V) :
    HInv (h.setitemIn o x y v) ∧
    (h.setitemIn o x y v).abs
      = h.abs.set i ⟨h.dims o.dims, (h.contents o).modify x (fun r => r.set y v)⟩ := by
  unfold setitemIn
  cases hx : (h.outer o.data)[x]? with
  | none =>
    refine ⟨hi, ?_⟩
    have : (h.contents o).modify x (fun r => r.set y v) = h.contents o := by
      refine List.ext_getElem? (fun k => ?_)
      rw [getElem?_mod]
      unfold contents
      rw [List.getElem?_map]
      by_cases hk : x = k
      · subst hk
        rw [hx]
        rfl
      · cases (h.outer o.data)[k]? with
        | none => rfl
        | some a => simp [hk]
    rw [this]
    refine List.ext_getElem? (fun k => ?_)
    rw [List.getElem?_set]
    by_cases hk : i = k
    · subst hk
      have hl := get_abs hio
      rw [if_pos rfl, if_pos (List.getElem?_eq_some_iff.1 hl).1, hl]
      rfl
    · rw [if_neg hk]
  | some a =>
    refine ⟨⟨hi.sep, hi.ok⟩, ?_⟩
    dsimp only
    have ha : a ∈ h.outer o.data := List.mem_of_getElem? hx
    refine List.ext_getElem? (fun k => ?_)
    unfold abs
    rw [List.getElem?_map, List.getElem?_set, List.getElem?_map]
    by_cases hk : i = k
    · subst hk
      have := (List.getElem?_eq_some_iff.1 hio).1
      rw [if_pos rfl, if_pos (by rw [List.length_map]; exact this), hio]
      simp only [Option.map_some]
      congr 1
      show (⟨_, List.map (put h.rows a ((h.rows a).set y v)) (h.outer o.data)⟩ : Tab V) = _
      congr 1
      refine List.ext_getElem? (fun n => ?_)
      rw [getElem?_mod]
      unfold contents
      rw [List.getElem?_map, List.getElem?_map]
      cases hb : (h.outer o.data)[n]? with
      | none => rfl
      | some b =>
        simp only [Option.map_some]
        congr 1
        by_cases hxn : x = n
        · subst hxn
          rw [hx] at hb
          cases hb
          rw [if_pos rfl, put_self]
        · rw [if_neg hxn, put_ne]
          intro hba
          subst hba
          have hnd := (hi.ok i o hio).2.2.1
          obtain ⟨l1, e1⟩ := List.getElem?_eq_some_iff.1 hx
          obtain ⟨l2, e2⟩ := List.getElem?_eq_some_iff.1 hb
          exact hxn ((List.Nodup.getElem_inj_iff hnd).1 (e1.trans e2.symm))
    · rw [if_neg hk]
      cases hp : h.objs[k]? with
      | none => rfl
      | some p =>
        simp only [Option.map_some]
        congr 1
        show (⟨_, List.map (put h.rows a ((h.rows a).set y v)) (h.outer p.data)⟩ : Tab V) = _
        unfold tab contents
        congr 1
        refine List.map_congr_left (fun b hb => put_ne _ _ ?_)
        intro hba
        subst hba
        exact (hi.sep k i p o hp hio (Ne.symm hk)).2 b hb ha

/-! ## The `_dims` lists -/

/-- The addresses of the `_dims` lists of the live objects. -/
def dimsAddrs (h : Heap V) : List Nat := h.objs.map HObj.dims

/-- `self._data = [...]` leaves the reference to `_dims`. -/
theorem assignOuter_get {h : Heap V} {i : Nat} {o : HObj} (hio : h.objs[i]? = some o) (as : List Nat) :
    (h.assignOuter i as).objs[i]? = some ⟨h.nOuter, o.dims⟩ := by
  show (h.objs.modify i _)[i]? = _
  rw [getElem?_mod, hio, Option.map_some, if_pos rfl]
  rfl

theorem modify_dims (objs : List HObj) (i b : Nat) :
    (objs.modify i (fun o => { o with data := b })).map HObj.dims = objs.map HObj.dims := by
  refine List.ext_getElem? (fun k => ?_)
  rw [List.getElem?_map, List.getElem?_map, getElem?_mod]
  cases objs[k]? with
  | none => rfl
  | some o =>
    simp only [Option.map_some]
    split <;> rfl

theorem dimsAddrs_assignOuter (h : Heap V) (i : Nat) (as : List Nat) :
    (h.assignOuter i as).dimsAddrs = h.dimsAddrs := modify_dims ..

theorem ownDims_iff {h : Heap V} {i : Nat} {o : HObj} :
    h.OwnDims i o ↔ ∀ j d, h.dimsAddrs[j]? = some d → j ≠ i → d ≠ o.dims := by
  unfold OwnDims dimsAddrs
  constructor
  · intro hh j d hj
    rw [List.getElem?_map] at hj
    obtain ⟨p, hp, rfl⟩ := Option.map_eq_some_iff.1 hj
    exact hh j p hp
  · intro hh j p hp
    exact hh j p.dims (by rw [List.getElem?_map, hp]; rfl)

/-- Storing new data and then the new size. -/
theorem outerThenDims {h h1 : Heap V} {i : Nat} {o : HObj} (hio : h.objs[i]? = some o) {vs : List (List V)}
    (d : Nat × Nat) (h1i : HInv h1) (habs : h1.abs = h.abs.modify i (fun t => { t with data := vs }))
    (hobj : ∃ a, h1.objs[i]? = some ⟨a, o.dims⟩) (hdims : h1.dimsAddrs = h.dimsAddrs) :
    HInv (h1.storeDims o d) ∧
    (h1.storeDims o d).abs.map Tab.data = (h.abs.set i ⟨d, vs⟩).map Tab.data ∧
    (h.OwnDims i o → (h1.storeDims o d).abs = h.abs.set i ⟨d, vs⟩) := by
  have hset : h.abs.modify i (fun _ => (⟨d, vs⟩ : Tab V)) = h.abs.set i ⟨d, vs⟩ :=
    modify_set (get_abs hio) _
  refine ⟨storeDims_inv h1i o d, ?_, ?_⟩
  · rw [storeDims_data, habs, ← hset]
    rw [map_modify_comm (g' := fun _ => vs) _ _ (fun _ _ _ _ => rfl),
      map_modify_comm (g' := fun _ => vs) _ _ (fun _ _ _ _ => rfl)]
  · intro hu
    obtain ⟨a, ha⟩ := hobj
    rw [storeDims_abs ha rfl (ownDims_iff.2 (by rw [hdims]; exact ownDims_iff.1 hu)), habs,
      List.modify_modify_eq, ← hset]
    rfl

theorem assignRows_get {h : Heap V} {i : Nat} {o : HObj} (hio : h.objs[i]? = some o) (vs : List (List V)) :
    ∃ a, (h.assignRows i vs).objs[i]? = some ⟨a, o.dims⟩ :=
  ⟨_, assignOuter_get (h := (h.allocRows vs).1) hio _⟩

theorem dimsAddrs_assignRows (h : Heap V) (i : Nat) (vs : List (List V)) :
    (h.assignRows i vs).dimsAddrs = h.dimsAddrs := dimsAddrs_assignOuter (h.allocRows vs).1 i _

theorem keepRest_spec {h : Heap V} (hi : HInv h) {i : Nat} {o : HObj} (hio : h.objs[i]? = some o) (ax : Ax)
    (tgt : List Nat) :
    HInv (h.keepRest i o ax tgt) ∧
    (h.keepRest i o ax tgt).abs = h.abs.modify i (fun t =>
      { t with data := Obj.restData ax (sizeOf (h.dims o.dims) ax) (h.contents o) tgt }) ∧
    (∃ a, (h.keepRest i o ax tgt).objs[i]? = some ⟨a, o.dims⟩) ∧
    (h.keepRest i o ax tgt).dimsAddrs = h.dimsAddrs := by
  obtain ⟨ha, hb, hc, hd⟩ := hi.ok i o hio
  unfold keepRest
  cases ax with
  | feature =>
    obtain ⟨a, b⟩ := assignRows_spec hi i (Obj.selData .feature (h.contents o)
      ((List.range (sizeOf (h.dims o.dims) .feature)).filter (fun k => k ∉ tgt)))
    exact ⟨a, b, assignRows_get hio _, dimsAddrs_assignRows ..⟩
  | point =>
    have hsub : ∀ idx : List Nat, ∀ a ∈ pick (h.outer o.data) idx, a ∈ h.outer o.data := by
      intro idx a ha
      obtain ⟨k, _, hk⟩ := mem_pick.1 ha
      exact List.mem_of_getElem? hk
    obtain ⟨a, b⟩ := assignOuter_spec hi i
      (as := pick (h.outer o.data) ((List.range (sizeOf (h.dims o.dims) .point)).filter (fun k => k ∉ tgt)))
      (nodup_pick hc (List.nodup_range.filter _)) (fun x hx => hd x (hsub _ x hx))
      (fun j p hjp hji x hx hm => (hi.sep j i p o hjp hio hji).2 x hm (hsub _ x hx))
    refine ⟨a, ?_, ⟨_, assignOuter_get hio _⟩, dimsAddrs_assignOuter ..⟩
    dsimp only
    rw [b, ← pick_map]
    rfl

theorem insertInto_spec {h : Heap V} (hi : HInv h) {i : Nat} {o p : HObj} (hio : h.objs[i]? = some o) (ax : Ax)
    (before : Nat) :
    HInv (h.insertInto i o ax before p) ∧
    (h.insertInto i o ax before p).abs.map Tab.data = (h.abs.set i
      ⟨setSize (h.dims o.dims) ax (sizeOf (h.dims o.dims) ax + sizeOf (h.dims p.dims) ax),
       Obj.insertData ax (sizeOf (h.dims o.dims) ax) (h.contents o) (h.contents p) before⟩).map Tab.data ∧
    (h.OwnDims i o → (h.insertInto i o ax before p).abs = h.abs.set i
      ⟨setSize (h.dims o.dims) ax (sizeOf (h.dims o.dims) ax + sizeOf (h.dims p.dims) ax),
       Obj.insertData ax (sizeOf (h.dims o.dims) ax) (h.contents o) (h.contents p) before⟩) := by
  obtain ⟨ha, hb, hc, hd⟩ := hi.ok i o hio
  unfold insertInto
  cases ax with
  | feature =>
    obtain ⟨a, b⟩ := assignRows_spec hi i
      (Obj.insertData .feature (h.dims o.dims).2 (h.contents o) (h.contents p) before)
    exact outerThenDims hio _ a b (assignRows_get hio _) (dimsAddrs_assignRows ..)
  | point =>
    dsimp only
    obtain ⟨h1, h2, h3, h4, h5, h6⟩ := allocRows_spec hi (h.contents p)
    obtain ⟨r, hr⟩ : ∃ r, r = h.allocRows (h.contents p) := ⟨_, rfl⟩
    rw [← hr] at h1 h2 h3 h4 h5 h6 ⊢
    have ho : r.1.objs = h.objs := by rw [hr]; rfl
    have hout : r.1.outer = h.outer := by rw [hr]; rfl
    have hnr : h.nRows ≤ r.1.nRows := by rw [hr]; exact Nat.le_add_right _ _
    have hdis : ∀ a ∈ h.outer o.data, a ∉ r.2 := by
      intro a ha hm
      have := hd a ha
      have := (h5 a hm).1
      omega
    have hold : (h.outer o.data).map r.1.rows = h.contents o :=
      List.map_congr_left (fun a ha => h6 a (hd a ha))
    obtain ⟨as, has⟩ : ∃ as, as = (if before ≠ 0 ∧ before ≠ (h.dims o.dims).1 then
        (h.outer o.data).take before ++ r.2 ++ (h.outer o.data).drop before
        else if before = 0 then r.2 ++ h.outer o.data else h.outer o.data ++ r.2) := ⟨_, rfl⟩
    rw [← has]
    have hmem : ∀ a ∈ as, a ∈ h.outer o.data ∨ a ∈ r.2 := by
      intro a haa
      rw [has] at haa
      split at haa
      · rw [List.mem_append, List.mem_append] at haa
        rcases haa with (hx | hx) | hx
        · exact Or.inl (List.mem_of_mem_take hx)
        · exact Or.inr hx
        · exact Or.inl (List.mem_of_mem_drop hx)
      · split at haa
        · exact (List.mem_append.1 haa).symm
        · exact List.mem_append.1 haa
    have hperm : as.Perm (h.outer o.data ++ r.2) := by
      rw [has]
      split
      · conv => rhs; rw [← List.take_append_drop before (h.outer o.data)]
        rw [List.append_assoc, List.append_assoc]
        exact List.Perm.append_left _ List.perm_append_comm
      · split
        · exact List.perm_append_comm
        · exact List.Perm.refl _
    have hnd : as.Nodup := by
      rw [hperm.nodup_iff, List.nodup_append]
      exact ⟨hc, h4, fun a ha b hb hab => hdis a ha (hab ▸ hb)⟩
    have hmap : as.map r.1.rows
        = Obj.insertData .point (h.dims o.dims).1 (h.contents o) (h.contents p) before := by
      rw [has]
      unfold Obj.insertData
      dsimp only
      split
      · rw [List.map_append, List.map_append, h3, List.map_take, List.map_drop, hold]
      · split
        · rw [List.map_append, h3, hold]
        · rw [List.map_append, h3, hold]
    obtain ⟨a, b⟩ := assignOuter_spec h1 i hnd
      (fun x hx => by
        rcases hmem x hx with hm | hm
        · have := hd x hm; omega
        · exact (h5 x hm).2)
      (fun j q hjq hji x hx hm => by
        rw [ho] at hjq
        rw [hout] at hm
        rcases hmem x hx with hmm | hmm
        · exact (hi.sep j i q o hjq hio hji).2 x hm hmm
        · have b1 := (hi.ok j q hjq).2.2.2 x hm
          have b2 := (h5 x hmm).1
          omega)
    refine outerThenDims hio _ a ?_ ⟨_, assignOuter_get (by rw [ho]; exact hio) _⟩ ?_
    · rw [b, h2, hmap]
      rfl
    · rw [dimsAddrs_assignOuter]
      unfold dimsAddrs
      rw [ho]

end Heap
end Mem
end Nimble
