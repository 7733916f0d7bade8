import Verif.Props.Sort
import Verif.Props.Insert

/-!
# Transpose (C13) and histories of operations (C01)
-/

namespace Nimble
open Obj
variable {V : Type}

/-! ## C13 – transpose -/

theorem setNames_opt_spec (n : Nat) (t0 : Option NameTable) {a : AxisSt} (h : a.Ok) (hn : a.len = n) :
    ∃ c, AxisSt.setNames ⟨n, t0⟩ (asAssign a.getNamesNoGen) = .ok c ∧
      c.Ok ∧ c.len = n ∧ c.getNames = a.getNames ∧ c.tbl.isSome = a.tbl.isSome := by
  cases ht : a.tbl with
  | none =>
    simp only [AxisSt.getNamesNoGen, ht, Option.map_none, asAssign, AxisSt.setNames]
    exact ⟨_, rfl, none_ok _, rfl, by simp [AxisSt.getNames, ht, hn], rfl⟩
  | some t =>
    have hk := h t ht
    simp only [AxisSt.getNamesNoGen, ht, Option.map_some, asAssign]
    have h1 : t.inv.length = n := by rw [hk.length_inv, hn]
    rw [setNames_list_eq, if_pos ⟨h1, hk.reduceOption_nodup⟩]
    exact ⟨_, rfl, mk_ok h1 hk.reduceOption_nodup, rfl, by rw [AxisSt.getNames_of_some ht]; rfl, rfl⟩

theorem transpose_spec {o : Obj V} (h : o.WF) :
    ∃ r, o.transpose = .ok r ∧ r.WF ∧ r.data = transposeData o.fts.len o.data ∧
      r.pts.len = o.fts.len ∧ r.fts.len = o.pts.len ∧
      r.pts.getNames = o.fts.getNames ∧ r.fts.getNames = o.pts.getNames := by
  obtain ⟨a, a1, a2, a3, a4, _⟩ := setNames_opt_spec o.fts.len o.pts.tbl h.fts rfl
  obtain ⟨b, b1, b2, b3, b4, _⟩ := setNames_opt_spec o.pts.len o.fts.tbl h.pts rfl
  unfold transpose
  simp only [a1, b1, bind, Except.bind, pure, Except.pure]
  refine ⟨⟨transposeData o.fts.len o.data, a, b⟩, rfl, ⟨?_, ?_, a2, b2⟩, rfl, a3, b3, a4, b4⟩
  · show (transposeData o.fts.len o.data).length = a.len
    rw [a3]; simp [transposeData]
  · intro q hq
    show q.length = b.len
    simp only [transposeData, List.mem_map, List.mem_range] at hq
    obtain ⟨j, hj, rfl⟩ := hq
    rw [b3, length_filterMap_col (h.col_bound hj), h.rows]

theorem elem_transpose {o r : Obj V} (h : o.WF) (hd : r.data = transposeData o.fts.len o.data) (i j : Nat)
    (hi : i < o.pts.len) (hj : j < o.fts.len) : r.elem? j i = o.elem? i j := by
  unfold Obj.elem?
  rw [hd]
  simp only [transposeData, List.getElem?_map, List.getElem?_range hj, Option.map_some, Option.bind_some]
  exact getElem?_filterMap_col (h.col_bound hj) i

/-- C13. `transpose` always succeeds; element (j, i) of the result is the former element (i, j)
and point and feature names are exchanged. -/
theorem C13_transpose_swaps {o : Obj V} (h : o.WF) :
    ∃ r, o.transpose = .ok r ∧ r.WF ∧ r.pts.len = o.fts.len ∧ r.fts.len = o.pts.len ∧
      (∀ i j, i < o.pts.len → j < o.fts.len → r.elem? j i = o.elem? i j) ∧
      r.pts.getNames = o.fts.getNames ∧ r.fts.getNames = o.pts.getNames := by
  obtain ⟨r, h1, h2, h3, h4, h5, h6, h7⟩ := transpose_spec h
  exact ⟨r, h1, h2, h4, h5, fun i j hi hj => elem_transpose h h3 i j hi hj, h6, h7⟩

/-- C13. Transposing twice gives the original object back. -/
theorem C13_transpose_involution {o : Obj V} (h : o.WF) :
    ∃ r q, o.transpose = .ok r ∧ r.transpose = .ok q ∧ q.Same o := by
  obtain ⟨r, h1, h2, h3, h4, h5, h6, h7⟩ := transpose_spec h
  obtain ⟨q, g1, g2, g3, g4, g5, g6, g7⟩ := transpose_spec h2
  refine ⟨r, q, h1, g1, by omega, by omega, ?_, by rw [g6, h7], by rw [g7, h6]⟩
  have lp : q.pts.len = o.pts.len := by omega
  have lf : q.fts.len = o.fts.len := by omega
  apply List.ext_getElem (by rw [g2.rows, h.rows, lp])
  intro i e1 e2
  have c1 := g2.cols _ (List.getElem_mem e1)
  have c2 := h.cols _ (List.getElem_mem e2)
  apply List.ext_getElem (by omega)
  intro j f1 f2
  have hi : i < o.pts.len := by rw [← h.rows]; exact e2
  have hj : j < o.fts.len := by omega
  have x1 := elem_transpose h h3 i j hi hj
  have x2 := elem_transpose h2 g3 j i (by omega) (by omega)
  rw [x1] at x2
  simpa [Obj.elem?, e1, e2, f1, f2] using x2

/-! ## C01 – every history keeps names consistent -/

/-- One public operation on an object. -/
inductive Op (V : Type) where
  | setNames (ax : Ax) (asg : Option (List (Option String)))
  | rename (ax : Ax) (old : Ident) (new : Option String)
  | extract (ax : Ax) (sel : Selector V)
  | delete (ax : Ax) (sel : Selector V)
  | retain (ax : Ax) (sel : Selector V)
  | copy (ax : Ax) (sel : Selector V)
  | permute (ax : Ax) (order : List Ident)
  | shuffle (ax : Ax)
  | sortBy (ax : Ax) (keys : List Ident) (reverse : Bool)
  | sortNames (ax : Ax) (reverse : Bool)
  | insert (ax : Ax) (before : Option Ident) (other : Obj V)
  | transpose
  | readNames (ax : Ax)

/-- The environment: random draws and comparisons. -/
structure Env (V : Type) where
  samp : List Nat → Nat → List Nat
  shuffle : Nat → List Nat
  le : V → V → Bool
  nle : String → String → Bool

/-- The environment behaves as documented. -/
structure Env.Ok (E : Env V) : Prop where
  samp : SampleSpec E.samp
  shuffle : ∀ n, ShuffleSpec n (E.shuffle n)
  le : TotalOrd E.le
  nle : TotalOrd E.nle

/-- Keep the new object if the call succeeded; a call that raises leaves the caller as it was. -/
def orKeep (o : Obj V) : Res (Obj V) → Obj V
  | .ok r => r
  | .error _ => o

/-- State of the calling object after an operation, whether it succeeds or raises. -/
def Op.run (E : Env V) (o : Obj V) : Op V → Obj V
  | .setNames ax asg => orKeep o ((AxisSt.setNames (o.axis ax) (asAssign asg)).map (o.setAxis ax))
  | .rename ax old new => o.setAxis ax ((o.axis ax).setNamesPartial [new] [old]).1
  | .extract ax sel => (o.extract E.samp ax sel).1
  | .delete ax sel => (o.delete E.samp ax sel).1
  | .retain ax sel => (o.retain E.samp ax sel).1
  | .copy ax sel => (o.copy E.samp ax sel).1
  | .permute ax order => orKeep o (o.permute ax order)
  | .shuffle ax => orKeep o (o.permuteRandom ax (E.shuffle (o.axis ax).len))
  | .sortBy ax keys reverse => (o.sortBy E.le reverse ax keys).1
  | .sortNames ax reverse => orKeep o (o.sortByNames E.nle reverse ax)
  | .insert ax before other => orKeep o (o.insert ax before other)
  | .transpose => orKeep o o.transpose
  | .readNames ax => o.setAxis ax (o.axis ax).touch

/-- Arguments of an operation that are themselves objects must be well formed. -/
def Op.ArgsOk : Op V → Prop
  | .insert _ _ other => other.WF
  | _ => True

def runAll (E : Env V) (o : Obj V) (ops : List (Op V)) : Obj V := ops.foldl (Op.run E) o

theorem wf_setAxis {o : Obj V} (h : o.WF) (ax : Ax) {a : AxisSt} (ha : a.Ok) (hl : a.len = (o.axis ax).len) :
    (o.setAxis ax a).WF := by
  cases ax with
  | point =>
    refine ⟨?_, h.cols, ha, h.fts⟩
    show o.data.length = a.len
    rw [hl]; exact h.rows
  | feature =>
    refine ⟨h.rows, ?_, h.pts, ha⟩
    intro r hr
    show r.length = a.len
    rw [hl]; exact h.cols r hr

theorem extract_state_wf {samp : List Nat → Nat → List Nat} (hs : SampleSpec samp) {o : Obj V} (h : o.WF)
    (ax : Ax) (sel : Selector V) : (o.extract samp ax sel).1.WF := by
  cases hx : o.extract samp ax sel with
  | mk o' res =>
    cases res with
    | ok ret =>
      obtain ⟨_, _, _, _, _, _, _, _, _, _, _, _, _, _, w⟩ := C06_extract_partition hs h hx
      exact w
    | error e =>
      have : o' = o := by
        unfold Obj.extract at hx
        split at hx
        · simp only [Prod.mk.injEq] at hx; exact hx.1.symm
        · simp at hx
      rw [this]; exact h

theorem sortKeys_wf {le : V → V → Bool} (hle : TotalOrd le) (reverse : Bool) (ax : Ax) (ids : List Ident)
    {o : Obj V} (h : o.WF) : (sortKeys le reverse ax o ids).1.WF := by
  induction ids generalizing o with
  | nil => exact h
  | cons k ks ih =>
    simp only [sortKeys]
    cases hone : sortByOne le reverse o ax k with
    | error e => exact h
    | ok o' =>
      simp only []
      apply ih
      unfold sortByOne at hone
      cases hg : (o.axis ax.off).getIndex k with
      | error e => simp [hg, bind, Except.bind] at hone
      | ok i =>
        simp only [hg, bind, Except.bind] at hone
        obtain ⟨l, _, hre⟩ := C09_permute_lines h hone
        exact hre.wf

theorem single_rename_ok {a a' : AxisSt} (h : a.Ok) {new : Option String} {old : Ident}
    (hs : a.setNamesPartial [new] [old] = (a', .ok ())) : a'.Ok ∧ a'.len = a.len := by
  have h0 : 0 < a.len := by
    by_contra hn
    have : a.len = 0 := by omega
    simp [AxisSt.setNamesPartial, this] at hs
  have hgetT : a.touch.getIndex old = a.getIndex old := by
    cases hn : a.tbl with
    | none => cases old <;> simp [AxisSt.touch, hn, AxisSt.getIndex, AxisSt.getIndexByName, defaultTable]
    | some t => simp [AxisSt.touch, hn]
  have hi : ∃ i, a.getIndex old = .ok i := by
    unfold AxisSt.setNamesPartial at hs
    rw [if_neg (by omega), if_pos ⟨by simp; omega, rfl⟩] at hs
    simp only [resolveOld, hgetT] at hs
    cases hg : a.getIndex old with
    | ok i => exact ⟨i, rfl⟩
    | error e =>
      simp only [hg, bind, Except.bind] at hs
      split at hs <;> simp at hs
  obtain ⟨i, hi⟩ := hi
  have hb := getIndex_bound h hi
  have := C03_setNames_partial_exact_partial h (new := [new]) (old := [old]) (idx := [i.toNat]) rfl h0
    (by simp only [List.map_cons, List.map_nil, hi]; congr 2; omega) (by simp) (by simp)
  simp only [hs] at this
  have := this.2.1 trivial
  exact ⟨this.2.1, this.1⟩

theorem setNamesPartial_single_ok {a : AxisSt} (h : a.Ok) (new : Option String) (old : Ident) :
    (a.setNamesPartial [new] [old]).1.Ok ∧ (a.setNamesPartial [new] [old]).1.len = a.len := by
  have hkeep : ∀ (a' : AxisSt) (t : NameTable), (a.touch).tbl = some t → a'.len = a.len →
      a'.tbl = some t → a'.Ok := by
    intro a' t ht hl ht'
    intro t' h'
    rw [ht'] at h'; cases h'
    have := h.touch t ht
    rwa [touch_len, ← hl] at this
  cases hs : a.setNamesPartial [new] [old] with
  | mk a' res =>
    cases res with
    | ok u =>
      exact single_rename_ok h hs
    | error e =>
      unfold AxisSt.setNamesPartial at hs
      split at hs
      · simp only [Prod.mk.injEq] at hs; rw [← hs.1]; exact ⟨h, rfl⟩
      · split at hs
        · simp only [] at hs
          split at hs
          · simp only [Prod.mk.injEq] at hs; rw [← hs.1]; exact ⟨h.touch, touch_len a⟩
          · split at hs
            · simp only [Prod.mk.injEq] at hs; rw [← hs.1]; exact ⟨h.touch, touch_len a⟩
            · split at hs
              · simp only [Prod.mk.injEq] at hs; rw [← hs.1]; exact ⟨h.touch, touch_len a⟩
              · simp at hs
        · simp only [Prod.mk.injEq] at hs; rw [← hs.1]; exact ⟨h, rfl⟩

/-- One operation keeps an object well formed. -/
theorem Op.run_wf {E : Env V} (hE : E.Ok) {o : Obj V} (h : o.WF) {op : Op V} (ha : op.ArgsOk) :
    (op.run E o).WF := by
  have keep : ∀ r : Res (Obj V), (∀ q, r = .ok q → q.WF) → (orKeep o r).WF := by
    intro r hr
    cases r with
    | ok q => exact hr q rfl
    | error e => exact h
  cases op with
  | setNames ax asg =>
    apply keep
    intro q hq
    cases hs : AxisSt.setNames (o.axis ax) (asAssign asg) with
    | error e => rw [hs] at hq; cases hq
    | ok a =>
      rw [hs] at hq
      simp only [Except.map, Except.ok.injEq] at hq
      subst hq
      cases asg with
      | none =>
        simp only [asAssign, AxisSt.setNames, Except.ok.injEq] at hs
        subst hs
        exact wf_setAxis h ax (none_ok _) rfl
      | some l =>
        obtain ⟨_, _, h3, h4⟩ := setNames_list_ok hs
        exact wf_setAxis h ax h4 (by rw [h3])
  | rename ax old new =>
    have := setNamesPartial_single_ok (h.axisOk ax) new old
    exact wf_setAxis h ax this.1 this.2
  | extract ax sel => exact extract_state_wf hE.samp h ax sel
  | delete ax sel =>
    show (o.delete E.samp ax sel).1.WF
    rw [(C07_delete_eq_extract o ax sel).1]
    exact extract_state_wf hE.samp h ax sel
  | retain ax sel =>
    have := C07_retain_eq_extract hE.samp h ax sel
    show (o.retain E.samp ax sel).1.WF
    cases hx : (o.extract E.samp ax sel).2 with
    | ok ret => rw [hx] at this; exact this.2.2
    | error e => rw [hx] at this; rw [this]; exact h
  | copy ax sel => exact h
  | permute ax order =>
    apply keep
    intro q hq
    obtain ⟨l, _, hre⟩ := C09_permute_lines h hq
    exact hre.wf
  | shuffle ax =>
    apply keep
    intro q hq
    obtain ⟨r, hr, hre⟩ := C09_permute_random h ax (hE.shuffle (o.axis ax).len)
    rw [hr] at hq; cases hq
    exact hre.wf
  | sortBy ax keys reverse => exact sortKeys_wf hE.le reverse ax keys.reverse h
  | sortNames ax reverse =>
    apply keep
    intro q hq
    unfold sortByNames at hq
    split at hq
    · cases hq
    · obtain ⟨l, _, hre⟩ := C09_permute_lines h hq
      exact hre.wf
  | insert ax before other =>
    apply keep
    intro q hq
    cases hi : insertPos (o.axis ax) before with
    | error e => simp [Obj.insert, hi, bind, Except.bind] at hq
    | ok i =>
      obtain ⟨_, _, _, _, _, w⟩ := C11_insert_lines h ha hi hq
      exact w
  | transpose =>
    apply keep
    intro q hq
    obtain ⟨r, hr, w, _⟩ := transpose_spec h
    rw [hr] at hq; cases hq; exact w
  | readNames ax => exact wf_setAxis h ax (h.axisOk ax).touch (touch_len _)

/-- C01. After any sequence of operations – successful or refused – the names of both axes satisfy
the invariant: one entry per element, `names[i] == s` exactly when `getIndex(s) == i`; and the data
still has the shape the axes say. -/
theorem C01_names_consistent_after_any_history {E : Env V} (hE : E.Ok) {o : Obj V} (h : o.WF)
    {ops : List (Op V)} (ha : ∀ op ∈ ops, op.ArgsOk) :
    NamesConsistent (runAll E o ops).pts ∧ NamesConsistent (runAll E o ops).fts ∧
    (runAll E o ops).data.length = (runAll E o ops).pts.len ∧
    (∀ r ∈ (runAll E o ops).data, r.length = (runAll E o ops).fts.len) := by
  have : (runAll E o ops).WF := by
    unfold runAll
    induction ops generalizing o with
    | nil => exact h
    | cons op ops ih =>
      exact ih (Op.run_wf hE h (ha op (by simp))) (fun q hq => ha q (by simp [hq]))
  exact ⟨this.pts.consistent, this.fts.consistent, this.rows, this.cols⟩

/-- C01. A freshly constructed object satisfies the invariant. -/
theorem C01_construction {data : List (List V)} {nP nF : Nat} (hr : data.length = nP)
    (hc : ∀ r ∈ data, r.length = nF) {pn fn : Option (List (Option String))} {o : Obj V}
    (ho : Obj.make data nP nF pn fn = .ok o) :
    o.WF ∧ (∀ l, pn = some l → o.pts.getNames = l) ∧ (∀ l, fn = some l → o.fts.getNames = l) := by
  have ini : ∀ (n : Nat) (names : Option (List (Option String))) (a : AxisSt),
      AxisSt.init n names = .ok a → a.Ok ∧ a.len = n ∧ ∀ l, names = some l → a.getNames = l := by
    intro n names a h
    cases names with
    | none => simp only [AxisSt.init, Except.ok.injEq] at h; subst h; exact ⟨none_ok _, rfl, by simp⟩
    | some l =>
      simp only [AxisSt.init] at h
      split at h
      · cases h
      · obtain ⟨_, _, h3, h4⟩ := setNames_list_ok h
        refine ⟨h4, by rw [h3], ?_⟩
        rintro l' ⟨⟩
        rw [h3]; rfl
  unfold Obj.make at ho
  cases h1 : AxisSt.init nP pn with
  | error e => simp [h1, bind, Except.bind] at ho
  | ok a =>
    cases h2 : AxisSt.init nF fn with
    | error e => simp [h1, h2, bind, Except.bind] at ho
    | ok b =>
      simp only [h1, h2, bind, Except.bind, pure, Except.pure, Except.ok.injEq] at ho
      obtain ⟨a1, a2, a3⟩ := ini _ _ _ h1
      obtain ⟨b1, b2, b3⟩ := ini _ _ _ h2
      subst ho
      exact ⟨⟨by rw [hr, a2], by intro r h; rw [hc r h, b2], a1, b1⟩, a3, b3⟩

/-! ### The hypotheses are met -/

theorem exEnv_ok : (⟨fun l k => l.take k, List.range, fun a b : Int => decide (a ≤ b),
    fun a b => decide (a.length ≤ b.length)⟩ : Env Int).Ok where
  samp := take_sampleSpec
  shuffle := fun n => List.Perm.refl _
  le := intLe_totalOrd
  nle := ⟨by intro a b c h1 h2; simp only [decide_eq_true_eq] at *; omega,
    by intro a b; simp only [Bool.or_eq_true, decide_eq_true_eq]; omega⟩

example : (runAll ⟨fun l k => l.take k, List.range, fun a b : Int => decide (a ≤ b),
      fun a b => decide (a.length ≤ b.length)⟩ exObj
    [.extract .point { target := some (.list [.str "b"]) }, .insert .point none exIns, .transpose,
     .rename .feature (.str "z") (some "y"), .permute .feature [.int 2, .int 0, .int 1]]).lines .feature =
    [(some "y", [7, 8]), (some "a", [1, 2]), (some "c", [5, 6])] := by decide

example : ∃ q r, exObj.transpose = .ok r ∧ r.transpose = .ok q ∧ q.data = exObj.data := ⟨_, _, rfl, rfl, by decide⟩

end Nimble
