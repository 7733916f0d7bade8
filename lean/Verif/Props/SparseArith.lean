import Verif.Lemmas.SparseArith

/-!
# C95: the arithmetic of Sparse objects is the arithmetic of their elements
-/

namespace Nimble.SpArith
open Nimble.Match Nimble.Sp Nimble.Scalar

/-! ## Specification -/

/-- The result of an operation on tables: element `(i, j)` is `g i j`; if the calculation of some element is a floating
point error, such an error is raised. -/
def Entrywise (op : Op) (rows cols : Nat) (g : Nat → Nat → Except FpFlag Flt) (r : Res (Coo Flt)) : Prop :=
  (∃ c, r = .ok c ∧ c.WF ∧ c.rows = rows ∧ c.cols = cols ∧ ∀ i < rows, ∀ j < cols, g i j = .ok (c.at i j)) ∨
  (∃ fl, r = .error (diagnose op fl) ∧ ∃ i < rows, ∃ j < cols, g i j = .error fl)

/-- `x op c`, or `c op x`. -/
def withScalar (A : Arith) (op : Op) (refl : Bool) (c x : Flt) : Except FpFlag Flt :=
  if refl then A op c x else A op x c

/-- What is used about the arithmetic of numpy: operations with 0, 1, infinities and nan. -/
structure Lawful (A : Arith) : Prop where
  mul_one : ∀ x, A .mul x (.fin 1) = .ok x
  one_mul : ∀ x, A .mul (.fin 1) x = .ok x
  div_one : ∀ x, A .truediv x (.fin 1) = .ok x
  pow_one : ∀ x, A .pow x (.fin 1) = .ok x
  zero_mul : ∀ q, A .mul (.fin 0) (.fin q) = .ok (.fin 0)
  mul_zero : ∀ q, A .mul (.fin q) (.fin 0) = .ok (.fin 0)
  zero_div : ∀ op c, op.divides = true → c ≠ .nan → c ≠ .fin 0 → A op (.fin 0) c = .ok (.fin 0)
  zero_pow : ∀ c : Flt, c.pos = true → A .pow (.fin 0) c = .ok (.fin 0)
  zero_mul_inf : ∀ c : Flt, (∀ q, c ≠ .fin q) → A .mul (.fin 0) c ≠ .ok (.fin 0)
  inf_mul_zero : ∀ c : Flt, (∀ q, c ≠ .fin q) → A .mul c (.fin 0) ≠ .ok (.fin 0)
  zero_div_nan : ∀ op, op.divides = true → A op (.fin 0) .nan ≠ .ok (.fin 0)

/-- Operations with a number that do not leave 0 alone although the Sparse object only looks at what is stored: a
multiplication by an infinity or nan, a division of the object by nan. -/
def Bad (op : Op) (refl : Bool) (c : Flt) : Prop :=
  (op = .mul ∧ ∀ q, c ≠ .fin q) ∨ (op.divides = true ∧ refl = false ∧ c = .nan)

/-! ## With a number -/

theorem zero_def : (0 : Flt) = .fin 0 := rfl

theorem onStored_spec {A : Arith} {op : Op} {refl : Bool} {c : Flt} {o : Coo Flt} (h : o.WF)
    (hz : HasZero o → side A op refl c 0 = .ok 0) :
    Entrywise op o.rows o.cols (fun i j => withScalar A op refl c (o.at i j)) (onStored op (side A op refl c) o) := by
  unfold onStored
  cases hf : firstFlag (o.ents.map (fun e => side A op refl c e.val)) with
  | some fl =>
    right
    obtain ⟨e, he, hg⟩ := List.mem_map.1 (firstFlag_some hf)
    refine ⟨fl, rfl, e.row, h.row_lt e he, e.col, h.col_lt e he, ?_⟩
    show withScalar A op refl c (o.at e.row e.col) = _
    rw [Coo.at_of_mem h.nodup he]
    exact hg
  | none =>
    left
    refine ⟨_, rfl, core_wf (keep_core h.toCore (fun e => val (side A op refl c e.val)) rfl) rfl rfl, rfl, rfl, ?_⟩
    intro i hi j hj
    show side A op refl c (o.at i j) = _
    by_cases h0 : o.at i j = 0
    · rw [keep_at_not h.toCore (fun e => val (side A op refl c e.val)) rfl h0, h0]
      exact hz ⟨i, hi, j, hj, h0⟩
    · have he := ent_of_at h.toCore h0
      have h1 := keep_at_mem h.toCore (fun e => val (side A op refl c e.val)) rfl he (s := none) (x := none)
      rw [h1]
      exact val_of_ok (firstFlag_none hf _ (List.mem_map.2 ⟨_, he, rfl⟩))

theorem mem_dense {o : Coo Flt} {x : Flt} (h : x ∈ o.dense.flatten) : ∃ i < o.rows, ∃ j < o.cols, x = o.at i j := by
  obtain ⟨r, hr, hx⟩ := List.mem_flatten.1 h
  obtain ⟨i, hi, rfl⟩ := List.mem_map.1 hr
  obtain ⟨j, hj, rfl⟩ := List.mem_map.1 hx
  exact ⟨i, List.mem_range.1 hi, j, List.mem_range.1 hj, rfl⟩

theorem at_mem_dense {o : Coo Flt} {i j : Nat} (hi : i < o.rows) (hj : j < o.cols) : o.at i j ∈ o.dense.flatten :=
  List.mem_flatten.2 ⟨_, List.mem_map.2 ⟨i, List.mem_range.2 hi, rfl⟩, List.mem_map.2 ⟨j, List.mem_range.2 hj, rfl⟩⟩

/-- Reading an object created from a table of calculated numbers. -/
theorem ofTable_spec (rows cols : Nat) (f : Nat → Nat → Flt) {c : Coo Flt}
    (hc : c = Coo.ofDense cols ((List.range rows).map (fun i => (List.range cols).map (fun j => f i j)))) :
    c.WF ∧ c.rows = rows ∧ c.cols = cols ∧ ∀ i < rows, ∀ j < cols, c.at i j = f i j := by
  subst hc
  obtain ⟨hw, hd⟩ := Coo.C18_ofDense (V := Flt) (ncol := cols)
    (data := (List.range rows).map (fun i => (List.range cols).map (fun j => f i j)))
    (by intro r hr; obtain ⟨i, _, rfl⟩ := List.mem_map.1 hr; simp)
  have hr : (Coo.ofDense cols ((List.range rows).map (fun i => (List.range cols).map (fun j => f i j)))).rows = rows := by
    simp [Coo.ofDense]
  refine ⟨hw, hr, rfl, fun i hi j hj => ?_⟩
  have h1 := Coo.at_dense (Coo.ofDense cols ((List.range rows).map (fun i => (List.range cols).map (fun j => f i j))))
    (i := i) (j := j) (by rw [hr]; exact hi) hj
  rw [hd] at h1
  simp only [List.getElem?_map, List.getElem?_range hi, Option.map_some, Option.bind_some, List.getElem?_range hj,
    Option.some.injEq] at h1
  exact h1.symm

theorem onAll_spec {A : Arith} {op : Op} {refl : Bool} {c : Flt} {o : Coo Flt} :
    Entrywise op o.rows o.cols (fun i j => withScalar A op refl c (o.at i j)) (onAll op (side A op refl c) o) := by
  unfold onAll
  rw [table_eq]
  cases hf : firstFlag (o.dense.flatten.map (side A op refl c)) with
  | some fl =>
    right
    obtain ⟨x, hx, hg⟩ := List.mem_map.1 (firstFlag_some hf)
    obtain ⟨i, hi, j, hj, rfl⟩ := mem_dense hx
    exact ⟨fl, rfl, i, hi, j, hj, hg⟩
  | none =>
    left
    obtain ⟨h1, h2, h3, h4⟩ := ofTable_spec o.rows o.cols (fun i j => val (side A op refl c (o.at i j)))
      (c := Coo.ofDense o.cols (o.dense.map (fun r => r.map (fun x => val (side A op refl c x)))))
      (by simp only [Coo.dense, List.map_map, Function.comp_def])
    refine ⟨_, rfl, h1, h2, h3, fun i hi j hj => ?_⟩
    show side A op refl c (o.at i j) = _
    rw [h4 i hi j hj]
    exact val_of_ok (firstFlag_none hf _ (List.mem_map.2 ⟨_, at_mem_dense hi hj, rfl⟩))

theorem eq_of_feq {c : Flt} {q : Rat} (h : c.eq (.fin q) = true) : c = .fin q := by
  cases c with
  | fin a => simp only [Flt.eq, decide_eq_true_eq] at h; rw [h]
  | inf => cases h
  | ninf => cases h
  | nan => cases h

/-- The division by zero is refused, and nothing else. -/
theorem C95_zero_division {A : Arith} {op : Op} {refl : Bool} {c : Flt} {o : Coo Flt} (h : o.WF)
    (hop : op.divides = true) :
    scalarOp A op refl c o = .error .ZeroDivisionError ↔ (if refl then HasZero o else c = .fin 0) := by
  have hd : ∀ fl, diagnose op fl = .FloatingPointError := by
    intro fl
    cases fl <;> cases op <;> first | rfl | cases hop
  have hor : ∀ {B : Type} (x : Option FpFlag) (b : B), orRaise op x b ≠ .error .ZeroDivisionError := by
    intro B x b hx
    cases x with
    | none => cases hx
    | some fl => simp only [orRaise, hd] at hx; cases hx
  have hiff : divides0 op refl c o = true ↔ (if refl then HasZero o else c = .fin 0) := by
    unfold divides0
    rw [hop, Bool.true_and]
    cases refl
    · simp only [Bool.false_eq_true, if_false]
      exact ⟨eq_of_feq, fun hc => by subst hc; rfl⟩
    · simp only [if_true]
      exact containsZero_iff h.toCore
  unfold scalarOp
  rw [← hiff]
  constructor
  · intro hx
    by_contra hn
    rw [if_neg hn] at hx
    unfold scalarBinary at hx
    split at hx
    · cases hx
    · split at hx
      · exact hor _ _ hx
      · exact hor _ _ hx
  · intro hx
    rw [if_pos hx]

/-- **C95.**  `sparse op c` and `c op sparse` for a number: every element is calculated, zeros included, although the
Sparse object looks at the stored values only.  Missing: operations by an infinity or nan that turn zeros into
something else (`Bad`, `C95_scalar_violated`). -/
theorem C95_scalar_partial {A : Arith} (hA : Lawful A) {op : Op} {refl : Bool} {c : Flt} {o : Coo Flt} (h : o.WF)
    (hdiv : op.divides = true → ¬ (if refl then HasZero o else c = .fin 0)) (hbad : HasZero o → ¬ Bad op refl c) :
    Entrywise op o.rows o.cols (fun i j => withScalar A op refl c (o.at i j)) (scalarOp A op refl c o) := by
  have hnd : ¬ divides0 op refl c o = true := by
    intro hx
    unfold divides0 at hx
    rw [Bool.and_eq_true] at hx
    refine hdiv hx.1 ?_
    cases refl
    · simpa using eq_of_feq hx.2
    · simpa using (containsZero_iff h.toCore).1 hx.2
  unfold scalarOp
  rw [if_neg hnd]
  unfold scalarBinary
  by_cases h1 : oneSafe op refl c = true
  · rw [if_pos h1]
    left
    refine ⟨_, rfl, core_wf ⟨h.nodup, h.row_lt, h.col_lt, h.nonzero⟩ rfl rfl, rfl, rfl, fun i hi j hj => ?_⟩
    show withScalar A op refl c (o.at i j) = .ok (o.at i j)
    unfold oneSafe at h1
    rw [Bool.and_eq_true] at h1
    have hc := eq_of_feq h1.2
    subst hc
    have h2 := h1.1
    simp only [Bool.or_eq_true, Bool.and_eq_true, decide_eq_true_eq, Bool.not_eq_true'] at h2
    unfold withScalar
    rcases h2 with rfl | ⟨rfl, rfl | rfl⟩
    · cases refl
      · exact hA.mul_one _
      · exact hA.one_mul _
    · exact hA.div_one _
    · exact hA.pow_one _
  · rw [if_neg h1]
    by_cases h2 : zeroPreserved op refl c = true
    · rw [if_pos h2]
      refine onStored_spec h (fun hz => ?_)
      have hb := hbad hz
      unfold zeroPreserved at h2
      simp only [Bool.or_eq_true, Bool.and_eq_true, decide_eq_true_eq, Bool.not_eq_true'] at h2
      have hdivs : op.divides = true → side A op refl c 0 = .ok 0 := by
        intro hop
        cases refl
        · have h0 : c ≠ .fin 0 := by simpa using hdiv hop
          exact hA.zero_div op c hop (fun hc => hb (.inr ⟨hop, rfl, hc⟩)) h0
        · exact absurd hz (by simpa using hdiv hop)
      rcases h2 with (((rfl | rfl) | rfl) | rfl) | ⟨⟨rfl, rfl⟩, hp⟩
      · have : ∃ q, c = .fin q := by
          by_contra hno
          exact hb (.inl ⟨rfl, fun q hq => hno ⟨q, hq⟩⟩)
        obtain ⟨q, rfl⟩ := this
        cases refl
        · exact hA.zero_mul q
        · exact hA.mul_zero q
      · exact hdivs rfl
      · exact hdivs rfl
      · exact hdivs rfl
      · exact hA.zero_pow c hp
    · rw [if_neg h2]
      exact onAll_spec

/-- **C95, violated.**  In the operations left out above a zero stays 0, although 0 times an infinity, and 0 times or
divided by nan, is nan (or a floating point error). -/
theorem C95_scalar_violated {A : Arith} (hA : Lawful A) {op : Op} {refl : Bool} {c : Flt} {o : Coo Flt} (h : o.WF)
    (hz : HasZero o) (hbad : Bad op refl c) :
    (∀ r, scalarOp A op refl c o = .ok r → ∀ i j, o.at i j = 0 → r.at i j = 0) ∧
    ¬ Entrywise op o.rows o.cols (fun i j => withScalar A op refl c (o.at i j)) (scalarOp A op refl c o) ∨
    (∃ fl, scalarOp A op refl c o = .error (diagnose op fl) ∧
      ∃ i < o.rows, ∃ j < o.cols, o.at i j ≠ 0 ∧ withScalar A op refl c (o.at i j) = .error fl) := by
  have hnd : divides0 op refl c o = false := by
    unfold divides0
    rcases hbad with ⟨rfl, _⟩ | ⟨_, rfl, rfl⟩
    · rfl
    · simp [Flt.eq]
  have h1 : oneSafe op refl c = false := by
    unfold oneSafe
    have : c.eq (.fin 1) = false := by
      rcases hbad with ⟨_, hq⟩ | ⟨_, _, rfl⟩
      · cases hc : c.eq (.fin 1) with
        | false => rfl
        | true => exact absurd (eq_of_feq hc) (hq 1)
      · rfl
    rw [this, Bool.and_false]
  have h2 : zeroPreserved op refl c = true := by
    unfold zeroPreserved
    rcases hbad with ⟨rfl, _⟩ | ⟨hd, _, _⟩
    · rfl
    · cases op <;> first | rfl | cases hd
  have hne : side A op refl c 0 ≠ .ok 0 := by
    rcases hbad with ⟨rfl, hq⟩ | ⟨hd, rfl, rfl⟩
    · cases refl
      · exact hA.zero_mul_inf c hq
      · exact hA.inf_mul_zero c hq
    · exact hA.zero_div_nan op hd
  have hs : scalarOp A op refl c o = onStored op (side A op refl c) o := by
    unfold scalarOp scalarBinary
    rw [hnd, h1, h2]
    rfl
  rw [hs]
  unfold onStored
  cases hf : firstFlag (o.ents.map (fun e => side A op refl c e.val)) with
  | some fl =>
    right
    obtain ⟨e, he, hg⟩ := List.mem_map.1 (firstFlag_some hf)
    refine ⟨fl, rfl, e.row, h.row_lt e he, e.col, h.col_lt e he, ?_, ?_⟩
    · rw [Coo.at_of_mem h.nodup he]; exact h.nonzero e he
    · rw [Coo.at_of_mem h.nodup he]; exact hg
  | none =>
    left
    have hk : ∀ i j, o.at i j = 0 →
        (⟨o.rows, o.cols, o.ents.filterMap (fun e => keepEnt e (val (side A op refl c e.val))), none, none⟩ : Coo Flt).at i j = 0 :=
      fun i j h0 => keep_at_not h.toCore (fun e => val (side A op refl c e.val)) rfl h0
    constructor
    · intro r hr i j h0
      cases hr
      exact hk i j h0
    · obtain ⟨i, hi, j, hj, h0⟩ := hz
      rintro (⟨r, hr, _, _, _, hh⟩ | ⟨fl, hr, _⟩)
      · cases hr
        have h3 := hh i hi j hj
        simp only [h0, hk i j h0] at h3
        exact hne h3
      · cases hr

/-! ## With another Sparse object -/

/-- The two objects can be combined. -/
structure Fit (op : Op) (a b : Coo Flt) : Prop where
  left : a.WF
  right : b.WF
  rows : a.rows = b.rows
  cols : a.cols = b.cols
  points : a.rows ≠ 0
  features : a.cols ≠ 0
  divisor : op.divides = true → ¬ HasZero b

/-- **C95 (refusals).**  Objects of different sizes, empty objects and divisors with a zero are refused. -/
theorem C95_objects_refused {E : Env} {op : Op} {a b : Coo Flt} (ha : a.WF) (hb : b.WF) :
    (a.rows ≠ b.rows ∨ a.cols ≠ b.cols → objOp E op a b = .error .InvalidArgumentValue) ∧
    (a.rows = b.rows → a.cols = b.cols → (a.rows = 0 ∨ a.cols = 0) → objOp E op a b = .error .ImproperObjectAction) ∧
    (a.rows = b.rows → a.cols = b.cols → a.rows ≠ 0 → a.cols ≠ 0 → op.divides = true → HasZero b →
      objOp E op a b = .error .ZeroDivisionError) := by
  unfold objOp validateObjs
  refine ⟨fun h => ?_, fun h1 h2 h3 => ?_, fun h1 h2 h3 h4 h5 h6 => ?_⟩
  · by_cases hr : a.rows = b.rows
    · rw [if_neg (not_not.2 hr), if_pos (h.resolve_left (not_not.2 hr))]; rfl
    · rw [if_pos hr]; rfl
  · rw [if_neg (not_not.2 h1), if_neg (not_not.2 h2), if_pos h3]; rfl
  · rw [if_neg (not_not.2 h1), if_neg (not_not.2 h2), if_neg (by rintro (h | h); exacts [h3 h, h4 h]),
      if_pos (by rw [h5, (containsZero_iff hb.toCore).2 h6]; rfl)]
    rfl

theorem objOp_fit {E : Env} {op : Op} {a b : Coo Flt} (h : Fit op a b) : objOp E op a b = compute E op a b := by
  unfold objOp validateObjs
  rw [if_neg (not_not.2 h.rows), if_neg (not_not.2 h.cols),
    if_neg (by rintro (hh | hh); exacts [h.points hh, h.features hh]), if_neg]
  · rfl
  · intro hh
    rw [Bool.and_eq_true] at hh
    exact h.divisor hh.1 ((containsZero_iff h.right.toCore).1 hh.2)

theorem mem_scipyOp {q : Flt → Flt → Flt} {a b : Coo Flt} (ha : a.Core) (hb : b.Core) {i j : Nat} {v : Flt} :
    (⟨i, j, v⟩ : Ent Flt) ∈ (scipyOp q a b).ents ↔
      i < a.rows ∧ j < a.cols ∧ (a.at i j ≠ 0 ∨ b.at i j ≠ 0) ∧ v = q (a.at i j) (b.at i j) ∧ v ≠ 0 := by
  unfold scipyOp scipyEnt
  simp only [List.mem_flatMap, List.mem_filterMap, List.mem_range]
  constructor
  · rintro ⟨i', hi, j', hj, hx⟩
    split at hx
    · next hs =>
      obtain ⟨h1, h2⟩ := keepEnt_eq_some.1 hx
      simp only [Ent.mk.injEq] at h2
      obtain ⟨rfl, rfl, rfl⟩ := h2
      rw [Bool.or_eq_true, storedAt_iff ha, storedAt_iff hb] at hs
      rw [valueAt_eq, valueAt_eq] at h1 ⊢
      exact ⟨hi, hj, hs, rfl, h1⟩
    · cases hx
  · rintro ⟨hi, hj, hs, rfl, h1⟩
    refine ⟨i, hi, j, hj, ?_⟩
    rw [if_pos (by rw [Bool.or_eq_true, storedAt_iff ha, storedAt_iff hb]; exact hs)]
    rw [valueAt_eq, valueAt_eq]
    exact keepEnt_eq_some.2 ⟨h1, rfl⟩

theorem scipyOp_nodup (q : Flt → Flt → Flt) (a b : Coo Flt) : ((scipyOp q a b).ents.map Ent.pos).Nodup := by
  have hpos : ∀ {i j : Nat} {e : Ent Flt}, scipyEnt q a b i j = some e → e.row = i ∧ e.col = j := by
    intro i j e he
    unfold scipyEnt at he
    split at he
    · obtain ⟨_, rfl⟩ := keepEnt_eq_some.1 he; exact ⟨rfl, rfl⟩
    · cases he
  unfold scipyOp
  simp only [List.map_flatMap]
  rw [List.nodup_flatMap]
  constructor
  · intro i _
    rw [List.nodup_iff_pairwise_ne, List.pairwise_map]
    refine List.Pairwise.filterMap _ ?_ List.nodup_range
    intro j j' hne e he e' he' hh
    obtain ⟨_, h1⟩ := hpos he
    obtain ⟨_, h2⟩ := hpos he'
    have : e.col = e'.col := congrArg Prod.snd hh
    exact hne (by rw [← h1, ← h2, this])
  · refine List.Pairwise.imp ?_ List.nodup_range
    intro i i' hne
    rw [Function.onFun, List.disjoint_left]
    intro p hp hp'
    obtain ⟨e, he, rfl⟩ := List.mem_map.1 hp
    obtain ⟨e', he', hh⟩ := List.mem_map.1 hp'
    obtain ⟨j, _, hj⟩ := List.mem_filterMap.1 he
    obtain ⟨j', _, hj'⟩ := List.mem_filterMap.1 he'
    have : e'.row = e.row := congrArg Prod.fst hh
    rw [(hpos hj).1, (hpos hj').1] at this
    exact hne this.symm

theorem scipyOp_spec {q : Flt → Flt → Flt} {a b : Coo Flt} (ha : a.Core) (hb : b.Core) :
    (scipyOp q a b).WF ∧ ∀ i < a.rows, ∀ j < a.cols, (a.at i j = 0 → b.at i j = 0 → q 0 0 = 0) →
      (scipyOp q a b).at i j = q (a.at i j) (b.at i j) := by
  have hc : (scipyOp q a b).Core := by
    refine ⟨scipyOp_nodup q a b, ?_, ?_, ?_⟩
    · intro e he; exact ((mem_scipyOp ha hb).1 he).1
    · intro e he; exact ((mem_scipyOp ha hb).1 he).2.1
    · intro e he; exact ((mem_scipyOp ha hb).1 he).2.2.2.2
  refine ⟨core_wf hc rfl rfl, fun i hi j hj h00 => ?_⟩
  by_cases hs : a.at i j ≠ 0 ∨ b.at i j ≠ 0
  · by_cases hv : q (a.at i j) (b.at i j) = 0
    · rw [hv]
      refine Coo.at_of_not fun e he hpos => ?_
      have hh : e.row = i ∧ e.col = j := by simpa [Ent.pos] using hpos
      obtain ⟨rfl, rfl⟩ := hh
      obtain ⟨_, _, _, h1, h2⟩ := (mem_scipyOp ha hb).1 he
      exact h2 (h1.trans hv)
    · exact Coo.at_of_mem hc.nodup ((mem_scipyOp ha hb (v := q (a.at i j) (b.at i j))).2 ⟨hi, hj, hs, rfl, hv⟩)
  · have h1 : a.at i j = 0 := by by_contra h; exact hs (.inl h)
    have h2 : b.at i j = 0 := by by_contra h; exact hs (.inr h)
    rw [h1, h2, h00 h1 h2]
    refine Coo.at_of_not fun e he hpos => ?_
    have hh : e.row = i ∧ e.col = j := by simpa [Ent.pos] using hpos
    obtain ⟨rfl, rfl⟩ := hh
    exact hs ((mem_scipyOp ha hb).1 he).2.2.1

/-- scipy calculates what numpy calculates where that is no floating point error, and 0 is 0 + 0, 0 - 0 and 0 * 0. -/
structure Agrees (E : Env) : Prop where
  same : ∀ op x y z, E.A op x y = .ok z → E.Q op x y = z
  zero : ∀ op, (op = .add ∨ op = .sub ∨ op = .mul) → E.Q op (.fin 0) (.fin 0) = .fin 0

/-- The numbers scipy calculates for `+`, `-`, `*`, `/`. -/
theorem scipy_objects {E : Env} (hE : Agrees E) {op : Op} {a b : Coo Flt} (h : Fit op a b)
    (hop : op = .add ∨ op = .sub ∨ op = .mul ∨ op = .truediv) :
    (scipyOp (E.Q op) a b).WF ∧ (scipyOp (E.Q op) a b).rows = a.rows ∧ (scipyOp (E.Q op) a b).cols = a.cols ∧
      ∀ i < a.rows, ∀ j < a.cols, (scipyOp (E.Q op) a b).at i j = E.Q op (a.at i j) (b.at i j) := by
  obtain ⟨h1, h2⟩ := scipyOp_spec (q := E.Q op) h.left.toCore h.right.toCore
  refine ⟨h1, rfl, rfl, fun i hi j hj => h2 i hi j hj (fun _ hb0 => ?_)⟩
  by_cases hd : op = .truediv
  · subst hd
    exact absurd ⟨i, h.rows ▸ hi, j, h.cols ▸ hj, hb0⟩ (h.divisor rfl)
  · exact hE.zero op (by tauto)

/-- **C95 (`+`, `-`, `*`, `/`).**  The sum, difference, product or quotient of two Sparse objects of the same size has
the sums, ... of the elements, stored or not, whenever none of them is a floating point error. -/
theorem C95_objects {E : Env} (hE : Agrees E) {op : Op} {a b : Coo Flt} (h : Fit op a b)
    (hop : op = .add ∨ op = .sub ∨ op = .mul ∨ op = .truediv)
    (hfl : ∀ i < a.rows, ∀ j < a.cols, ∃ z, E.A op (a.at i j) (b.at i j) = .ok z) :
    ∃ c, objOp E op a b = .ok c ∧ c.WF ∧ c.rows = a.rows ∧ c.cols = a.cols ∧
      ∀ i < a.rows, ∀ j < a.cols, E.A op (a.at i j) (b.at i j) = .ok (c.at i j) := by
  obtain ⟨h1, h2, h3, h4⟩ := scipy_objects hE h hop
  refine ⟨scipyOp (E.Q op) a b, ?_, h1, h2, h3, fun i hi j hj => ?_⟩
  · rw [objOp_fit h]
    rcases hop with rfl | rfl | rfl | rfl <;> rfl
  · obtain ⟨z, hz⟩ := hfl i hi j hj
    rw [h4 i hi j hj, hE.same _ _ _ _ hz, hz]

/-- **C95 (`+`, `-`, `*`, `/`), violated.**  A floating point error, such as infinity minus infinity, is raised by the
other types but not by Sparse: the operation succeeds. -/
theorem C95_silent_violated {E : Env} {op : Op} {a b : Coo Flt} (h : Fit op a b)
    (hop : op = .add ∨ op = .sub ∨ op = .mul ∨ op = .truediv)
    (hfl : ∃ i < a.rows, ∃ j < a.cols, ∃ fl, E.A op (a.at i j) (b.at i j) = .error fl) :
    ¬ Entrywise op a.rows a.cols (fun i j => E.A op (a.at i j) (b.at i j)) (objOp E op a b) := by
  have hr : objOp E op a b = .ok (scipyOp (E.Q op) a b) := by
    rw [objOp_fit h]
    rcases hop with rfl | rfl | rfl | rfl <;> rfl
  rw [hr]
  obtain ⟨i, hi, j, hj, fl, hf⟩ := hfl
  rintro (⟨c, _, _, _, _, hh⟩ | ⟨fl', hh, _⟩)
  · have := hh i hi j hj
    simp only [hf] at this
    cases this
  · cases hh

/-- **C95 (`**`).**  Every element to the power of the other object's element; errors are raised. -/
theorem C95_pow {E : Env} {a b : Coo Flt} (h : Fit .pow a b) :
    Entrywise .pow a.rows a.cols (fun i j => E.A .pow (a.at i j) (b.at i j)) (objOp E .pow a b) := by
  rw [objOp_fit h]
  show Entrywise _ _ _ _ (pow E a b)
  unfold pow
  simp only [valueAt_eq]
  cases hf : firstFlag ((List.range a.rows).flatMap (fun i => (List.range a.cols).map (fun j =>
      E.A .pow (a.at i j) (b.at i j)))) with
  | some fl =>
    right
    obtain ⟨i, hi, hx⟩ := List.mem_flatMap.1 (firstFlag_some hf)
    obtain ⟨j, hj, hx⟩ := List.mem_map.1 hx
    exact ⟨fl, rfl, i, List.mem_range.1 hi, j, List.mem_range.1 hj, hx⟩
  | none =>
    left
    obtain ⟨h1, h2, h3, h4⟩ := ofTable_spec a.rows a.cols (fun i j => val (E.A .pow (a.at i j) (b.at i j))) rfl
    refine ⟨_, rfl, h1, h2, h3, fun i hi j hj => ?_⟩
    show E.A .pow (a.at i j) (b.at i j) = _
    rw [h4 i hi j hj]
    exact val_of_ok (firstFlag_none hf _ (List.mem_flatMap.2 ⟨i, List.mem_range.2 hi,
      List.mem_map.2 ⟨j, List.mem_range.2 hj, rfl⟩⟩))

/-- **C95 (`//`).**  The elements are the quotients rounded down; they are the elements of the other types' result
where `x // y` is the quotient rounded down.  Missing: elements for which it is not (`C95_floordiv_violated`). -/
theorem C95_floordiv_partial {E : Env} (hE : Agrees E) (hf0 : E.floor (.fin 0) = .fin 0) {a b : Coo Flt}
    (h : Fit .floordiv a b) :
    ∃ c, objOp E .floordiv a b = .ok c ∧ c.WF ∧ c.rows = a.rows ∧ c.cols = a.cols ∧
      ∀ i < a.rows, ∀ j < a.cols, c.at i j = E.floor (E.Q .truediv (a.at i j) (b.at i j)) ∧
        ∀ z, E.A .floordiv (a.at i j) (b.at i j) = .ok z → E.floor (E.Q .truediv (a.at i j) (b.at i j)) = z →
          E.A .floordiv (a.at i j) (b.at i j) = .ok (c.at i j) := by
  have hfit : Fit .truediv a b := ⟨h.left, h.right, h.rows, h.cols, h.points, h.features, fun _ => h.divisor rfl⟩
  obtain ⟨h1, h2, h3, h4⟩ := scipy_objects hE hfit (.inr (.inr (.inr rfl)))
  have hat : ∀ i < a.rows, ∀ j < a.cols, (floordiv E a b).at i j = E.floor (E.Q .truediv (a.at i j) (b.at i j)) := by
    intro i hi j hj
    rw [← h4 i hi j hj]
    by_cases h0 : (scipyOp (E.Q .truediv) a b).at i j = 0
    · rw [h0, zero_def, hf0]
      exact keep_at_not h1.toCore (fun e => E.floor e.val) rfl h0
    · exact keep_at_mem h1.toCore (fun e => E.floor e.val) rfl (ent_of_at h1.toCore h0)
  refine ⟨floordiv E a b, by rw [objOp_fit h]; rfl,
    core_wf (keep_core h1.toCore (fun e => E.floor e.val) rfl) rfl rfl, rfl, rfl, fun i hi j hj => ⟨hat i hi j hj, ?_⟩⟩
  intro z hz hq
  rw [hat i hi j hj, hz, hq]

/-- **C95 (`//`), violated.**  Wherever `x // y` is not the rounded quotient (in floating point arithmetic
`1 // 0.1` is 9 and `1 / 0.1` rounded down is 10; `inf // 1` is an error and `inf / 1` is inf) Sparse objects
disagree with the other types. -/
theorem C95_floordiv_violated {E : Env} (hE : Agrees E) (hf0 : E.floor (.fin 0) = .fin 0) {a b : Coo Flt}
    (h : Fit .floordiv a b)
    (hx : ∃ i < a.rows, ∃ j < a.cols, E.A .floordiv (a.at i j) (b.at i j) ≠
      .ok (E.floor (E.Q .truediv (a.at i j) (b.at i j)))) :
    ¬ Entrywise .floordiv a.rows a.cols (fun i j => E.A .floordiv (a.at i j) (b.at i j)) (objOp E .floordiv a b) := by
  obtain ⟨c, hc, _, _, _, hat⟩ := C95_floordiv_partial hE hf0 h
  obtain ⟨i, hi, j, hj, hne⟩ := hx
  rw [hc]
  rintro (⟨c', h1, _, _, _, hh⟩ | ⟨fl, h1, _⟩)
  · cases h1
    have := hh i hi j hj
    rw [(hat i hi j hj).1] at this
    exact hne this
  · cases h1

/-! ### `%` -/

theorem broadcast_same {x y : List Flt} (h : x.length = y.length) : broadcast x y = .ok (x.zip y) := by
  unfold broadcast; rw [if_pos h]

theorem zip_map_self {A B : Type} (l : List A) (g : A → B) : l.zip (l.map g) = l.map (fun e => (e, g e)) := by
  induction l with
  | nil => rfl
  | cons x l ih => simp [ih]

theorem vals_eq {a b : Coo Flt} (hb : (b.ents.map Ent.pos).Nodup) (hp : a.ents.map Ent.pos = b.ents.map Ent.pos) :
    b.ents.map Ent.val = a.ents.map (fun e => b.at e.row e.col) := by
  have h1 : b.ents.map Ent.val = b.ents.map (fun e => b.at e.row e.col) :=
    List.map_congr_left (fun e he => (Coo.at_of_mem hb he).symm)
  have h2 : ∀ l : List (Ent Flt), l.map (fun e => b.at e.row e.col) = (l.map Ent.pos).map (fun p => b.at p.1 p.2) := by
    intro l; simp [Ent.pos]
  rw [h1, h2, h2, hp]

theorem mod_sorted {a b : Coo Flt} (h : Fit .mod a b) (ax : Ax) :
    Coo.SortedFrom a (a.sortInternal ax false) ax ∧ Coo.SortedFrom b (b.sortInternal ax false) ax :=
  ⟨Coo.sortInternal_spec h.left.toCore ax false false (fun _ => h.left),
   Coo.sortInternal_spec h.right.toCore ax false false (fun _ => h.right)⟩

/-- **C95 (`%`).**  If the left object has no zeros, every element is the remainder of the elements; errors are
raised.  Missing: left objects with zeros (`C95_mod_violated`). -/
theorem C95_mod_partial {E : Env} {a b : Coo Flt} (h : Fit .mod a b) (hz : ¬ HasZero a) :
    Entrywise .mod a.rows a.cols (fun i j => E.A .mod (a.at i j) (b.at i j)) (objOp E .mod a b) := by
  rw [objOp_fit h]
  show Entrywise _ _ _ _ (mod E a b)
  obtain ⟨ha1, hb1⟩ := mod_sorted h (a.sorted.getD .point)
  have hpos : (a.sortInternal (a.sorted.getD .point) false).ents.map Ent.pos =
      (b.sortInternal (a.sorted.getD .point) false).ents.map Ent.pos := by
    refine sorted_pos_eq (ha1.wf.sorted_ok _ ha1.sorted) (hb1.wf.sorted_ok _ hb1.sorted) ?_
    have p1 := (ha1.perm.map Ent.pos).trans (full_perm h.left.toCore hz)
    have p2 := (hb1.perm.map Ent.pos).trans (full_perm h.right.toCore (h.divisor rfl))
    have : allPos a = allPos b := by unfold allPos; rw [h.rows, h.cols]
    rw [this] at p1
    exact p1.trans p2.symm
  unfold mod
  generalize hA : a.sortInternal (a.sorted.getD .point) false = a1 at *
  generalize hB : b.sortInternal (a.sorted.getD .point) false = b1 at *
  have hat : ∀ i j, a1.at i j = a.at i j := fun i j => Coo.at_perm h.left.nodup ha1.perm i j
  have hbt : ∀ i j, b1.at i j = b.at i j := fun i j => Coo.at_perm h.right.nodup hb1.perm i j
  have hv := vals_eq hb1.wf.nodup hpos
  have hargs : broadcast (a1.ents.map Ent.val) (b1.ents.map Ent.val) =
      .ok (a1.ents.map (fun e => (e.val, b.at e.row e.col))) := by
    rw [hv, broadcast_same (by simp)]
    congr 1
    rw [List.zip_map']
    simp only [hbt]
  simp only [bind, Except.bind, hargs, List.map_map]
  have hcomp : a1.ents.map ((fun p : Flt × Flt => E.A .mod p.1 p.2) ∘ fun e => (e.val, b.at e.row e.col)) =
      a1.ents.map (fun e => E.A .mod e.val (b.at e.row e.col)) := rfl
  rw [hcomp]
  cases hf : firstFlag (a1.ents.map (fun e => E.A .mod e.val (b.at e.row e.col))) with
  | some fl =>
    right
    obtain ⟨e, he, hx⟩ := List.mem_map.1 (firstFlag_some hf)
    refine ⟨fl, rfl, e.row, ha1.rows ▸ ha1.wf.row_lt e he, e.col, ha1.cols ▸ ha1.wf.col_lt e he, ?_⟩
    show E.A .mod (a.at e.row e.col) (b.at e.row e.col) = _
    rw [← hat, Coo.at_of_mem ha1.wf.nodup he]
    exact hx
  | none =>
    left
    have hents : (a1.ents.zip (a1.ents.map (fun e => E.A .mod e.val (b.at e.row e.col)))).filterMap
        (fun p => keepEnt p.1 (val p.2)) =
        a1.ents.filterMap (fun e => keepEnt e (val (E.A .mod e.val (b.at e.row e.col)))) := by
      rw [zip_map_self, List.filterMap_map]
      rfl
    have hreb : rebuild a1 (a1.ents.map (fun e => E.A .mod e.val (b.at e.row e.col))) =
        .ok ⟨a1.rows, a1.cols, a1.ents.filterMap (fun e => keepEnt e (val (E.A .mod e.val (b.at e.row e.col)))),
          none, none⟩ := by
      unfold rebuild
      rw [if_pos (by simp), hents]
    refine ⟨_, hreb, core_wf (keep_core ha1.wf.toCore _ rfl) rfl rfl, ha1.rows, ha1.cols, fun i hi j hj => ?_⟩
    have hne : a1.at i j ≠ 0 := by rw [hat]; exact fun h0 => hz ⟨i, hi, j, hj, h0⟩
    have he := ent_of_at ha1.wf.toCore hne
    have h1 := keep_at_mem ha1.wf.toCore (fun e => val (E.A .mod e.val (b.at e.row e.col))) rfl he
      (s := none) (x := none)
    rw [h1]
    show E.A .mod (a.at i j) (b.at i j) = _
    have h2 := val_of_ok (firstFlag_none hf _ (List.mem_map.2 ⟨_, he, rfl⟩))
    simp only [hat] at h2 ⊢
    exact h2

/-- **C95 (`%`), violated.**  A left object with a zero is refused (unless it is a single element), whatever the other
elements are: only the stored values are handed to numpy, and there are not as many as in the right object. -/
theorem C95_mod_violated {E : Env} (hfl : ∀ x y, ∃ z, E.A .mod x y = .ok z) {a b : Coo Flt} (h : Fit .mod a b)
    (hz : HasZero a) (h1 : a.rows ≠ 1 ∨ a.cols ≠ 1) : objOp E .mod a b = .error .ValueError := by
  rw [objOp_fit h]
  show mod E a b = _
  obtain ⟨ha1, hb1⟩ := mod_sorted h (a.sorted.getD .point)
  unfold mod
  generalize hA : a.sortInternal (a.sorted.getD .point) false = a1 at *
  generalize hB : b.sortInternal (a.sorted.getD .point) false = b1 at *
  have hla : a1.ents.length < a.rows * a.cols := by
    rw [ha1.perm.length_eq]
    have := (containsZero_iff h.left.toCore).2 hz
    unfold containsZero at this
    exact of_decide_eq_true this
  have hlb : b1.ents.length = a.rows * a.cols := by
    rw [hb1.perm.length_eq, h.rows, h.cols, ← length_allPos]
    have := (full_perm h.right.toCore (h.divisor rfl)).length_eq
    rw [List.length_map] at this
    exact this
  have hsz : 1 < a.rows * a.cols := by
    have hr := h.points
    have hc := h.features
    rcases h1 with h1 | h1
    · calc 1 < a.rows := by omega
        _ = a.rows * 1 := by omega
        _ ≤ a.rows * a.cols := Nat.mul_le_mul_left _ (by omega)
    · calc 1 < a.cols := by omega
        _ = 1 * a.cols := by omega
        _ ≤ a.rows * a.cols := Nat.mul_le_mul_right _ (by omega)
  have hno : ∀ l : List (Except FpFlag Flt), (∀ x ∈ l, ∃ z, x = .ok z) → firstFlag l = none := by
    intro l hl
    cases hf : firstFlag l with
    | none => rfl
    | some fl =>
      obtain ⟨z, hz⟩ := hl _ (firstFlag_some hf)
      cases hz
  unfold broadcast
  simp only [List.length_map]
  rw [if_neg (by omega)]
  by_cases hone : a1.ents.length = 1
  · rw [if_pos hone]
    simp only [bind, Except.bind]
    rw [hno]
    · simp only [orRaise]
      unfold rebuild
      rw [if_neg]
      simp only [List.length_map]
      omega
    · intro x hx
      obtain ⟨p, _, rfl⟩ := List.mem_map.1 hx
      exact hfl _ _
  · rw [if_neg hone, if_neg (by omega)]
    rfl

/-! ## Examples -/

/-- Exact arithmetic with infinities and nan (as far as the examples need it). -/
def exA : Arith
  | .mul, x, y =>
    if y = .fin 1 then .ok x
    else if x = .fin 1 then .ok y
    else match x, y with
      | .fin p, .fin q => .ok (.fin (p * q))
      | _, _ => .error .invalid
  | .pow, x, y => if y = .fin 1 then .ok x else if x = .fin 0 ∧ y.pos = true then .ok (.fin 0) else .error .invalid
  | .truediv, x, y =>
    if y = .fin 1 then .ok x
    else match x, y with
      | .fin p, .fin q => .ok (.fin (p / q))
      | _, .nan => .ok .nan
      | .fin _, _ => .ok (.fin 0)
      | _, _ => .error .invalid
  | .add, .fin p, .fin q => .ok (.fin (p + q))
  | .sub, .fin p, .fin q => .ok (.fin (p - q))
  | .add, _, _ => .error .invalid
  | .sub, _, _ => .error .invalid
  | _, _, .nan => .ok .nan
  | _, .fin p, .fin q => if p = 0 then .ok (.fin 0) else if p = q then .ok (.fin 1) else .ok (.fin (p + q))
  | _, x, _ => if x = .fin 0 then .ok x else .ok .nan

def exQ (op : Op) (x y : Flt) : Flt := val (exA op x y)

def exE : Env := ⟨exA, exQ, id⟩

theorem exA_lawful : Lawful exA := by
  refine ⟨fun x => by simp [exA], fun x => ?_, fun x => by simp [exA], fun x => by simp [exA], fun q => ?_, fun q => ?_,
    ?_, fun c hc => ?_, fun c hc => ?_, fun c hc => ?_, ?_⟩
  · by_cases h : x = .fin 1
    · subst h; simp [exA]
    · simp [exA, h]
  · by_cases h : q = 1
    · subst h; simp [exA]
    · simp [exA, h]
  · by_cases h : q = 1
    · subst h; simp [exA]
    · simp [exA, h]
  · intro op c hop h1 h2
    by_cases h : c = .fin 1
    · subst h; cases op <;> first | (cases hop; done) | simp [exA]
    · cases op <;> first | (cases hop; done) | (cases c <;> simp_all [exA, Rat.div_def, Rat.zero_mul])
  · by_cases h : c = .fin 1
    · subst h; simp [exA]
    · simp [exA, h, hc]
  · cases c with
    | fin q => exact absurd rfl (hc q)
    | inf => simp [exA]
    | ninf => simp [exA]
    | nan => simp [exA]
  · cases c with
    | fin q => exact absurd rfl (hc q)
    | inf => simp [exA]
    | ninf => simp [exA]
    | nan => simp [exA]
  · intro op hop
    cases op <;> first | (cases hop; done) | simp [exA]

theorem exE_agrees : Agrees exE := by
  refine ⟨fun op x y z h => ?_, fun op h => ?_⟩
  · show val (exA op x y) = z
    rw [show exA op x y = .ok z from h]
    rfl
  · rcases h with rfl | rfl | rfl <;> decide +kernel

/-- Two zeros and two numbers. -/
def exS : Coo Flt := ⟨2, 2, [⟨1, 1, .fin (-3)⟩, ⟨0, 0, .fin 2⟩], none, none⟩

/-- No zeros, stored in another order. -/
def exF : Coo Flt := ⟨2, 2, [⟨0, 0, .fin 5⟩, ⟨1, 0, .fin 7⟩, ⟨0, 1, .inf⟩, ⟨1, 1, .fin 3⟩], some .feature, none⟩

theorem exS_wf : exS.WF := by
  refine core_wf ⟨by decide +kernel, by decide +kernel, by decide +kernel, by decide +kernel⟩ rfl rfl

theorem exF_wf : exF.WF := by
  refine ⟨⟨by decide +kernel, by decide +kernel, by decide +kernel, by decide +kernel⟩, ?_, ?_⟩
  · intro ax hx
    cases hx
    decide +kernel
  · intro l hl; cases hl

theorem exS_zero : HasZero exS := ⟨0, by decide, 1, by decide, by decide +kernel⟩

theorem exF_full : ¬ HasZero exF := by
  rw [← containsZero_iff exF_wf.toCore]
  decide +kernel

theorem ex_fit (op : Op) : Fit op exS exF :=
  ⟨exS_wf, exF_wf, rfl, rfl, by decide, by decide, fun _ => exF_full⟩

/-- `sparse * 4` keeps two zeros and calculates the others; `4 ** sparse` and `sparse + 4` are calculated everywhere. -/
example : (∀ op, op = .mul ∨ op = .add ∨ op = .pow → ∀ refl,
    Entrywise op 2 2 (fun i j => withScalar exA op refl (.fin 4) (exS.at i j)) (scalarOp exA op refl (.fin 4) exS)) := by
  intro op hop refl
  refine C95_scalar_partial exA_lawful exS_wf ?_ ?_
  · rcases hop with rfl | rfl | rfl <;> intro h <;> cases h
  · rintro - (⟨_, h⟩ | ⟨h, _⟩)
    · exact h 4 rfl
    · rcases hop with rfl | rfl | rfl <;> cases h

example : scalarOp exA .mul false (.fin 4) exS = .ok ⟨2, 2, [⟨1, 1, .fin (-12)⟩, ⟨0, 0, .fin 8⟩], none, none⟩ := by
  decide +kernel

/-- `sparse / nan` leaves two zeros; the other types give nan there. -/
example : scalarOp exA .truediv false .nan exS = .ok ⟨2, 2, [⟨1, 1, .nan⟩, ⟨0, 0, .nan⟩], none, none⟩ ∧
    withScalar exA .truediv false .nan (exS.at 0 1) = .ok .nan ∧ Bad .truediv false .nan := by
  refine ⟨by decide +kernel, by decide +kernel, .inr ⟨rfl, rfl, rfl⟩⟩

example : scalarOp exA .truediv true (.fin 4) exS = .error .ZeroDivisionError :=
  (C95_zero_division exS_wf rfl).2 exS_zero

/-- A sum without floating point errors. -/
example : ∃ c, objOp exE .add exS exS = .ok c ∧ c.at 1 1 = .fin (-6) ∧ c.at 0 1 = .fin 0 := by
  refine ⟨_, rfl, by decide +kernel, by decide +kernel⟩

/-- The quotient of `exS` by `exF`. -/
example : ∃ c, objOp exE .truediv exS exF = .ok c ∧ c.WF ∧ c.rows = 2 ∧ c.cols = 2 ∧
    ∀ i < 2, ∀ j < 2, exE.A .truediv (exS.at i j) (exF.at i j) = .ok (c.at i j) := by
  refine C95_objects exE_agrees (ex_fit _) (.inr (.inr (.inr rfl))) ?_
  intro i hi j hj
  have : (i = 0 ∨ i = 1) ∧ (j = 0 ∨ j = 1) := by
    have : i < 2 := hi
    have : j < 2 := hj
    omega
  obtain ⟨rfl | rfl, rfl | rfl⟩ := this
  · exact ⟨.fin (2 / 5), by decide +kernel⟩
  · exact ⟨.fin 0, by decide +kernel⟩
  · exact ⟨.fin 0, by decide +kernel⟩
  · exact ⟨.fin (-1), by decide +kernel⟩

/-- Infinity minus infinity is an error. -/
example : ¬ Entrywise .sub 2 2 (fun i j => exE.A .sub (exF.at i j) (exF.at i j)) (objOp exE .sub exF exF) :=
  C95_silent_violated ⟨exF_wf, exF_wf, rfl, rfl, by decide, by decide, fun h => by cases h⟩ (.inr (.inl rfl))
    ⟨0, by decide, 1, by decide, .invalid, by decide +kernel⟩

/-- `exF % exF` is calculated, `exS % exF` is refused. -/
example : Entrywise .mod 2 2 (fun i j => exE.A .mod (exF.at i j) (exF.at i j)) (objOp exE .mod exF exF) :=
  C95_mod_partial ⟨exF_wf, exF_wf, rfl, rfl, by decide, by decide, fun _ => exF_full⟩ exF_full

example : objOp exE .mod exS exF = .error .ValueError := by
  refine C95_mod_violated (fun x y => ?_) (ex_fit _) exS_zero (.inl (by decide))
  cases x <;> cases y <;> simp only [exE, exA] <;> (try split_ifs) <;> exact ⟨_, rfl⟩

/-- `exS // exF`: in `exA` an element is not the rounded quotient. -/
example : ¬ Entrywise .floordiv 2 2 (fun i j => exE.A .floordiv (exS.at i j) (exF.at i j))
    (objOp exE .floordiv exS exF) :=
  C95_floordiv_violated exE_agrees rfl (ex_fit _) ⟨0, by decide, 0, by decide, by decide +kernel⟩

end Nimble.SpArith
