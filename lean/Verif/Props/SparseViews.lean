import Verif.Props.SparseReplace

/-!
# C18: views and histories of the `Sparse` representation
-/

namespace Nimble
namespace Sp
variable {V : Type}
namespace Coo
variable [Zero V]

/-! ## Views -/

/-- The part `[p0, p1) × [f0, f1)` of a table. -/
def sub (t : List (List V)) (p0 p1 f0 f1 : Nat) : List (List V) :=
  ((t.take p1).drop p0).map (fun r => (r.take f1).drop f0)

theorem dense_sub {c d : Coo V} {p0 p1 f0 f1 : Nat} (hp : p1 ≤ c.rows) (hf : f1 ≤ c.cols)
    (hr : d.rows = p1 - p0) (hk : d.cols = f1 - f0)
    (h : ∀ i j, i < p1 - p0 → j < f1 - f0 → d.at i j = c.at (p0 + i) (f0 + j)) :
    d.dense = sub c.dense p0 p1 f0 f1 := by
  refine dense_ext ?_ ?_ ?_
  · simp only [sub, List.length_map, List.length_drop, List.length_take, length_dense, hr]
    omega
  · intro r hrm
    unfold sub at hrm
    obtain ⟨r0, hr0, rfl⟩ := List.mem_map.1 hrm
    have := row_dense (List.mem_of_mem_take (List.mem_of_mem_drop hr0))
    simp only [List.length_drop, List.length_take, this, hk]
    omega
  · intro i j hi hj
    rw [h i j (by omega) (by omega)]
    unfold sub
    rw [List.getElem?_map, List.getElem?_drop, List.getElem?_take, if_pos (by omega),
      dense_getElem (by omega)]
    simp only [Option.map_some, Option.bind_some]
    rw [List.getElem?_drop, List.getElem?_take, if_pos (by omega), List.getElem?_map,
      List.getElem?_range (by omega)]
    rfl

/-- A view of a rectangular part shows the part of the dense table. -/
theorem C18_window {c : Coo V} (h : c.WF) {p0 p1 f0 f1 : Nat} (hp1 : p1 ≤ c.rows) (hf1 : f1 ≤ c.cols) :
    (c.window p0 p1 f0 f1).WF ∧ (c.window p0 p1 f0 f1).dense = sub c.dense p0 p1 f0 f1 := by
  have hmem : ∀ i j v, (⟨i, j, v⟩ : Ent V) ∈ (c.window p0 p1 f0 f1).ents ↔
      p0 + i < p1 ∧ f0 + j < f1 ∧ (⟨p0 + i, f0 + j, v⟩ : Ent V) ∈ c.ents := by
    intro i j v
    show _ ∈ List.map _ _ ↔ _
    simp only [List.mem_map, List.mem_filter, Bool.and_eq_true, decide_eq_true_eq]
    constructor
    · rintro ⟨⟨a, b, w⟩, ⟨he, hb⟩, heq⟩
      simp only [Ent.mk.injEq] at heq hb
      obtain ⟨rfl, rfl, rfl⟩ := heq
      have q1 : p0 + (a - p0) = a := by omega
      have q2 : f0 + (b - f0) = b := by omega
      rw [q1, q2]
      exact ⟨by omega, by omega, he⟩
    · rintro ⟨h1, h2, h3⟩
      refine ⟨_, ⟨h3, ?_⟩, ?_⟩
      · simp only; omega
      · simp only [Ent.mk.injEq, and_true]; omega
  have hcore : (c.window p0 p1 f0 f1).Core := by
    refine ⟨?_, ?_, ?_, ?_⟩
    · show (List.map _ (List.map _ _)).Nodup
      rw [List.map_map]
      refine List.Nodup.map_on ?_ (h.nodup.of_map.filter _)
      intro x hx y hy hxy
      have hx' := (List.mem_filter.1 hx)
      have hy' := (List.mem_filter.1 hy)
      simp only [Bool.and_eq_true, decide_eq_true_eq] at hx' hy'
      simp only [Function.comp, Ent.pos, Prod.mk.injEq] at hxy
      exact List.inj_on_of_nodup_map h.nodup hx'.1 hy'.1 (by simp only [Ent.pos, Prod.mk.injEq]; omega)
    · rintro ⟨i, j, v⟩ he
      obtain ⟨a, b, m⟩ := (hmem i j v).1 he
      show i < p1 - p0
      omega
    · rintro ⟨i, j, v⟩ he
      obtain ⟨a, b, m⟩ := (hmem i j v).1 he
      show j < f1 - f0
      omega
    · rintro ⟨i, j, v⟩ he
      have := h.nonzero _ ((hmem i j v).1 he).2.2
      exact this
  refine ⟨hcore.wf rfl rfl, ?_⟩
  refine dense_sub hp1 hf1 rfl rfl ?_
  intro i j hi hj
  refine at_eq hcore.nodup h.nodup (fun v => ?_)
  rw [hmem]
  constructor
  · intro hh; exact hh.2.2
  · intro hh; exact ⟨by omega, by omega, hh⟩

omit [Zero V] in
/-- Taking what lies between two search results of a sorted list. -/
theorem between {A : Type} (f : A → Nat) {l : List A} (h : l.Pairwise (fun a b => f a ≤ f b)) {s e : Nat}
    (hse : s ≤ e) : (l.take (searchsorted (l.map f) e)).drop (searchsorted (l.map f) s)
      = l.filter (fun a => decide (s ≤ f a) && decide (f a < e)) := by
  have a1 := (segment_eq f l h e).2.2
  have a2 := (segment_eq f l h s).2.2
  have hss : searchsorted (l.map f) s = (l.filter (fun a => decide (f a < s))).length := by
    rw [← a2, List.length_take]
    have : searchsorted (l.map f) s ≤ l.length := by
      unfold searchsorted
      exact (List.takeWhile_prefix _).length_le.trans (by simp)
    omega
  rw [a1]
  have hsp := (split_sorted f s (l.filter (fun a => decide (f a < e))) (h.sublist List.filter_sublist)).2
  have e1 : (l.filter (fun a => decide (f a < e))).filter (fun a => decide (f a < s))
      = l.filter (fun a => decide (f a < s)) := by
    rw [List.filter_filter]
    apply List.filter_congr
    intro x _
    by_cases hx : f x < s
    · have : f x < e := by omega
      simp [hx, this]
    · simp [hx]
  rw [e1] at hsp
  rw [hsp, hss, List.append_assoc, List.drop_left]
  have e2 : ∀ m : List A, m.Pairwise (fun a b => f a ≤ f b) →
      m.filter (fun a => decide (f a = s)) ++ m.filter (fun a => decide (s < f a))
        = m.filter (fun a => decide (s ≤ f a)) := by
    intro m hm
    have := congrArg (List.filter (fun a => decide (s ≤ f a))) (split_sorted f s m hm).2
    rw [List.filter_append, List.filter_append, List.filter_filter, List.filter_filter, List.filter_filter] at this
    rw [this]
    have z1 : m.filter (fun a => decide (s ≤ f a) && decide (f a < s)) = [] := by
      rw [List.filter_eq_nil_iff]; intro a _; simp
    have z2 : m.filter (fun a => decide (s ≤ f a) && decide (f a = s)) = m.filter (fun a => decide (f a = s)) := by
      apply List.filter_congr
      intro a _
      by_cases hh : f a = s
      · simp [hh]
      · simp [hh]
    have z3 : m.filter (fun a => decide (s ≤ f a) && decide (s < f a)) = m.filter (fun a => decide (s < f a)) := by
      apply List.filter_congr
      intro a _
      by_cases hh : s < f a
      · simp [hh]; omega
      · simp [hh]
    rw [z1, z2, z3, List.nil_append]
  rw [e2 _ (h.sublist List.filter_sublist), List.filter_filter]

/-- A view of one point or one feature, or of a part of it, shows the part of the dense table; the
source may get sorted but keeps its table. -/
theorem C18_vectorView {c : Coo V} (h : c.WF) (ax : Ax) {i s0 s1 : Nat} (hi : i < c.size ax)
    (hs : s0 ≤ s1) (hs1 : s1 ≤ c.size ax.off) :
    ∃ v, (c.vectorView ax i s0 s1).2 = .ok v ∧ v.WF ∧
      v.dense = (match ax with
        | .point => sub c.dense i (i + 1) s0 s1
        | .feature => sub c.dense s0 s1 i (i + 1)) ∧
      (c.vectorView ax i s0 s1).1.WF ∧ (c.vectorView ax i s0 s1).1.dense = c.dense := by
  have hsf := sortInternal_spec h.toCore ax true false (fun _ => h)
  have hidx := sortInternal_indices h.toCore ax false (fun _ => h)
  unfold vectorView
  obtain ⟨c1, hc1⟩ : ∃ c1, c1 = c.sortInternal ax true := ⟨_, rfl⟩
  dsimp only
  rw [← hc1] at hsf hidx ⊢
  have hg : ∀ k, k ≤ c1.size ax → c1.indices.bind (fun l => l[k]?)
      = some (searchsorted (c1.ents.map (Ent.on ax)) k) := by
    intro k hk
    rw [hidx]
    simp only [Option.bind_some, List.getElem?_map, List.getElem?_range (by omega : k < c1.size ax + 1)]
    rfl
  have hi1 : i < c1.size ax := by rw [hsf.size]; exact hi
  have hs11 : s1 ≤ c1.size ax.off := by rw [hsf.size]; exact hs1
  rw [hg i (by omega), hg (i + 1) (by omega)]
  dsimp only
  have hsorted := hsf.wf.sorted_ok ax hsf.sorted
  rw [(segment_eq (Ent.on ax) c1.ents (on_pairwise hsorted) i).1]
  obtain ⟨sec, hsec⟩ : ∃ sec, sec = c1.ents.filter (fun a => decide (a.on ax = i)) := ⟨_, rfl⟩
  rw [← hsec]
  have hoff : sec.Pairwise (fun a b => a.on ax.off ≤ b.on ax.off) := by rw [hsec]; exact off_pairwise hsorted i
  have hcore1 := (core_iff ax c1).1 hsf.wf.toCore
  -- the part
  have hpart : (sec.take (if decide (s0 = 0 ∧ s1 = c1.size ax.off) = true then sec.length
        else searchsorted (sec.map (Ent.on ax.off)) s1)).drop
        (if decide (s0 = 0 ∧ s1 = c1.size ax.off) = true then 0
        else searchsorted (sec.map (Ent.on ax.off)) s0)
      = sec.filter (fun a => decide (s0 ≤ a.on ax.off) && decide (a.on ax.off < s1)) := by
    by_cases hw : s0 = 0 ∧ s1 = c1.size ax.off
    · rw [if_pos (by simpa using hw), if_pos (by simpa using hw), List.take_length, List.drop_zero]
      symm
      rw [List.filter_eq_self]
      intro e he
      have := (hcore1.2 e (by rw [hsec] at he; exact (List.mem_filter.1 he).1)).2.1
      simp only [Bool.and_eq_true, decide_eq_true_eq]
      omega
    · rw [if_neg (by simpa using hw), if_neg (by simpa using hw)]
      exact between (Ent.on ax.off) hoff hs
  rw [hpart]
  refine ⟨_, rfl, ?_⟩
  generalize hv : ({ rows := match ax with | .point => 1 | .feature => s1 - s0
                     cols := match ax with | .point => s1 - s0 | .feature => 1
                     ents := (sec.filter (fun a => decide (s0 ≤ a.on ax.off) && decide (a.on ax.off < s1))).map
                       (fun e => Ent.mkOn ax 0 (e.on ax.off - s0) e.val) } : Coo V) = v
  have hsz : v.size ax = 1 ∧ v.size ax.off = s1 - s0 := by
    rw [← hv]; cases ax <;> exact ⟨rfl, rfl⟩
  have hfresh : v.sorted = none ∧ v.indices = none := by rw [← hv]; exact ⟨rfl, rfl⟩
  have hents : v.ents = (sec.filter (fun a => decide (s0 ≤ a.on ax.off) && decide (a.on ax.off < s1))).map
      (fun e => Ent.mkOn ax 0 (e.on ax.off - s0) e.val) := by rw [← hv]
  have hmem : ∀ p o w, Ent.mkOn ax p o w ∈ v.ents ↔ p = 0 ∧ s0 + o < s1 ∧ Ent.mkOn ax i (s0 + o) w ∈ c1.ents := by
    intro p o w
    rw [hents, hsec]
    simp only [List.mem_map, List.mem_filter, Bool.and_eq_true, decide_eq_true_eq]
    constructor
    · rintro ⟨e, ⟨⟨he, hon⟩, hb⟩, heq⟩
      rw [mkOn_inj] at heq
      obtain ⟨rfl, rfl, rfl⟩ := heq
      have q : s0 + (e.on ax.off - s0) = e.on ax.off := by omega
      rw [q, ← hon, mkOn_on]
      exact ⟨rfl, by omega, he⟩
    · rintro ⟨rfl, hb, he⟩
      refine ⟨_, ⟨⟨he, on_mkOn ..⟩, ?_⟩, ?_⟩
      · rw [off_mkOn]; omega
      · rw [off_mkOn, val_mkOn, Nat.add_sub_cancel_left]
  have hcore : v.Core := by
    rw [core_iff ax]
    refine ⟨?_, ?_⟩
    · rw [hents, List.map_map, hsec]
      refine List.Nodup.map_on ?_ ((hcore1.1.of_map.filter _).filter _)
      intro x hx y hy hxy
      have hx' := List.mem_filter.1 hx
      have hy' := List.mem_filter.1 hy
      have hx2 := List.mem_filter.1 hx'.1
      have hy2 := List.mem_filter.1 hy'.1
      simp only [Bool.and_eq_true, decide_eq_true_eq] at hx' hy' hx2 hy2
      simp only [Function.comp, posA_mkOn, Prod.mk.injEq, true_and] at hxy
      exact List.inj_on_of_nodup_map hcore1.1 hx2.1 hy2.1 (by simp only [Ent.posA, Prod.mk.injEq]; omega)
    · refine forall_ent (ax := ax) ?_
      intro p o w he
      obtain ⟨rfl, a, b⟩ := (hmem p o w).1 he
      have := (hcore1.2 _ b).2.2
      rw [val_mkOn] at this
      rw [on_mkOn, off_mkOn, val_mkOn, hsz.1, hsz.2]
      exact ⟨by omega, by omega, this⟩
  refine ⟨hcore.wf hfresh.1 hfresh.2, ?_, hsf.wf, hsf.dense h.nodup⟩
  have hat : ∀ o, o < s1 - s0 → v.atA ax 0 o = c1.atA ax i (s0 + o) := by
    intro o ho
    refine atA_eq ax hcore.nodup hsf.wf.nodup (fun w => ?_)
    rw [hmem]
    constructor
    · intro hh; exact hh.2.2
    · intro hh; exact ⟨rfl, by omega, hh⟩
  have hatc : ∀ a b, c1.at a b = c.at a b := fun a b => at_perm h.nodup hsf.perm a b
  cases ax with
  | point =>
    refine dense_sub (show i + 1 ≤ c.rows from hi) hs1
      (by rw [show v.rows = 1 from hsz.1]; omega) hsz.2 ?_
    intro a b ha hb
    have a0 : a = 0 := by omega
    subst a0
    rw [← hatc]
    exact hat b hb
  | feature =>
    refine dense_sub hs1 (show i + 1 ≤ c.cols from hi) hsz.2
      (by rw [show v.cols = 1 from hsz.1]; omega) ?_
    intro a b ha hb
    have b0 : b = 0 := by omega
    subst b0
    rw [← hatc]
    exact hat a ha

end Coo

/-! ## Histories -/

/-- A table with its shape. -/
structure Tab (V : Type) where
  rows : Nat
  cols : Nat
  data : List (List V)

namespace Tab

/-- Number of points or features. -/
def size (t : Tab V) : Ax → Nat
  | .point => t.rows
  | .feature => t.cols

/-- The shape with one size changed. -/
def withSize (t : Tab V) (ax : Ax) (n : Nat) (data : List (List V)) : Tab V :=
  match ax with
  | .point => ⟨n, t.cols, data⟩
  | .feature => ⟨t.rows, n, data⟩

end Tab

/-- Operations of a history; `V` the values. -/
inductive Op (V : Type) where
  | get (x y : Nat)
  | set (x y : Nat) (v : V)
  | transpose
  | permute (ax : Ax) (order : List Nat)
  | insert (ax : Ax) (before : Nat) (d : Coo V)
  | keep (ax : Ax) (tgt : List Nat)
  | delete (ax : Ax) (tgt : List Nat)
  | rep (ax : Ax) (k : Nat) (vbv : Bool)
  | uniq (ax : Ax)
  | scalar (f : V → V)

/-- The arguments are those the front end lets through. -/
def Op.Valid [Zero V] (n m : Nat) : Op V → Prop
  | .get x y => x < n ∧ y < m
  | .set x y _ => x < n ∧ y < m
  | .transpose => True
  | .permute .point order => order.Perm (List.range n)
  | .permute .feature order => order.Perm (List.range m)
  | .insert .point i d => d.WF ∧ i ≤ n ∧ d.cols = m
  | .insert .feature i d => d.WF ∧ i ≤ m ∧ d.rows = n
  | .keep .point tgt => ∀ i ∈ tgt, i < n
  | .keep .feature tgt => ∀ i ∈ tgt, i < m
  | .delete _ _ => True
  | .rep _ _ _ => True
  | .uniq _ => True
  | .scalar f => f 0 = 0

/-- The operation on a Sparse object, with the value read. -/
def Op.sparse [Zero V] [DecidableEq V] (c : Coo V) : Op V → Coo V × Option (Res V)
  | .get x y => ((c.getitem x y).1, some (c.getitem x y).2)
  | .set x y v => ((c.setitem x y v).1, none)
  | .transpose => (c.transpose, none)
  | .permute ax order => (c.permute ax order, none)
  | .insert ax i d => (c.insert ax i d, none)
  | .keep ax tgt => (c.select ax tgt, none)
  | .delete ax tgt => (c.remaining ax tgt, none)
  | .rep ax k vbv => (c.repeat ax k vbv, none)
  | .uniq ax => (c.unique ax, none)
  | .scalar f => (c.scalarStored f, none)

/-- The operation on the table, as the dense representation does it. -/
def Op.dense [Zero V] [DecidableEq V] (t : Tab V) : Op V → Tab V × Option (Res V)
  | .get x y => (t, some (match (t.data[x]?).bind (·[y]?) with
      | some v => .ok v
      | none => .error .IndexError))
  | .set x y v => ({ t with data := Coo.setAt t.data x y v }, none)
  | .transpose => (⟨t.cols, t.rows, Obj.transposeData t.cols t.data⟩, none)
  | .permute ax order => ({ t with data := Obj.permuteData ax t.data order }, none)
  | .insert ax i d =>
    (t.withSize ax (t.size ax + d.size ax) (Obj.insertData ax (t.size ax) t.data d.dense i), none)
  | .keep ax tgt => (t.withSize ax tgt.length (Obj.selData ax t.data tgt), none)
  | .delete ax tgt =>
    (t.withSize ax ((List.range (t.size ax)).filter (fun i => i ∉ tgt)).length
      (Obj.restData ax (t.size ax) t.data tgt), none)
  | .rep ax k vbv => (t.withSize ax (t.size ax * k) (repeatData ax vbv k t.data), none)
  | .uniq ax =>
    let idx := uniqueLoop (Coo.vectors ax (t.size ax) t.data) 0 []
    (t.withSize ax idx.length (Obj.selData ax t.data idx), none)
  | .scalar f => ({ t with data := t.data.map (List.map f) }, none)

/-- A history on the Sparse object: the final object and everything read. -/
def runSparse [Zero V] [DecidableEq V] : Coo V → List (Op V) → Coo V × List (Option (Res V))
  | c, [] => (c, [])
  | c, op :: ops =>
    let r := op.sparse c
    let q := runSparse r.1 ops
    (q.1, r.2 :: q.2)

/-- The same history on the table. -/
def runDense [Zero V] [DecidableEq V] : Tab V → List (Op V) → Tab V × List (Option (Res V))
  | t, [] => (t, [])
  | t, op :: ops =>
    let r := op.dense t
    let q := runDense r.1 ops
    (q.1, r.2 :: q.2)

/-- All arguments in a history are valid at the time they are used. -/
def ValidRun [Zero V] [DecidableEq V] : Tab V → List (Op V) → Prop
  | _, [] => True
  | t, op :: ops => op.Valid t.rows t.cols ∧ ValidRun (op.dense t).1 ops

/-- The Sparse object holds the table. -/
structure Holds [Zero V] (c : Coo V) (t : Tab V) : Prop where
  wf : c.WF
  rows : c.rows = t.rows
  cols : c.cols = t.cols
  data : c.dense = t.data

theorem Holds.size [Zero V] {c : Coo V} {t : Tab V} (h : Holds c t) (ax : Ax) : c.size ax = t.size ax := by
  cases ax
  · exact h.rows
  · exact h.cols

theorem holds_withSize [Zero V] {c d : Coo V} {t : Tab V} (h : Holds c t) {ax : Ax} {n : Nat}
    {data : List (List V)} (hw : d.WF) (h1 : d.size ax = n) (h2 : d.size ax.off = c.size ax.off)
    (h3 : d.dense = data) : Holds d (t.withSize ax n data) := by
  cases ax
  · exact ⟨hw, h1, h2.trans h.cols, h3⟩
  · exact ⟨hw, h2.trans h.rows, h1, h3⟩

theorem op_holds [Zero V] [DecidableEq V] {c : Coo V} {t : Tab V} (h : Holds c t) {op : Op V}
    (hv : op.Valid t.rows t.cols) :
    Holds (op.sparse c).1 (op.dense t).1 ∧ (op.sparse c).2 = (op.dense t).2 := by
  cases op with
  | get x y =>
    have hx : x < c.rows := by rw [h.rows]; exact hv.1
    have hy : y < c.cols := by rw [h.cols]; exact hv.2
    obtain ⟨a, b, d, e, f⟩ := Coo.C18_getitem h.wf hx hy
    refine ⟨⟨b, d.trans h.rows, e.trans h.cols, f.trans h.data⟩, ?_⟩
    simp only [Op.sparse, Op.dense]
    rw [a, ← h.data, Coo.at_dense c hx hy]
  | set x y v =>
    obtain ⟨a, b, d, e, f⟩ := Coo.C18_setitem h.wf (by rw [h.rows]; exact hv.1 : x < c.rows)
      (by rw [h.cols]; exact hv.2 : y < c.cols) v
    exact ⟨⟨b, d.trans h.rows, e.trans h.cols, f.trans (by rw [h.data]; rfl)⟩, rfl⟩
  | transpose =>
    obtain ⟨a, b, d, e⟩ := Coo.C18_transpose h.wf
    exact ⟨⟨a, b.trans h.cols, d.trans h.rows, e.trans (by rw [h.data, h.cols]; rfl)⟩, rfl⟩
  | permute ax order =>
    have hp : order.Perm (List.range (c.size ax)) := by
      rw [h.size]
      cases ax
      · exact hv
      · exact hv
    obtain ⟨a, b, d, e⟩ := Coo.C18_permute h.wf hp
    exact ⟨⟨a, b.trans h.rows, d.trans h.cols, e.trans (by rw [h.data]; rfl)⟩, rfl⟩
  | insert ax i d =>
    have hv' : d.WF ∧ i ≤ c.size ax ∧ d.size ax.off = c.size ax.off := by
      rw [h.size, h.size]
      cases ax
      · exact hv
      · exact hv
    obtain ⟨a, b, e, f⟩ := Coo.C18_insert h.wf hv'.1 hv'.2.1 hv'.2.2
    refine ⟨holds_withSize h a (b.trans (by rw [h.size])) e (by rw [← h.data, ← h.size]; exact f), rfl⟩
  | keep ax tgt =>
    have ht : ∀ i ∈ tgt, i < c.size ax := by
      rw [h.size]
      cases ax
      · exact hv
      · exact hv
    obtain ⟨a, b, e, f⟩ := Coo.C18_select h.wf ax ht
    exact ⟨holds_withSize h a b e (by rw [← h.data]; exact f), rfl⟩
  | delete ax tgt =>
    obtain ⟨a, f⟩ := Coo.C18_remaining h.wf ax tgt
    refine ⟨holds_withSize h a ?_ ?_ (by rw [← h.data, ← h.size]; exact f), rfl⟩
    · rw [← h.size]; exact (Coo.size_select c ax _).1
    · exact (Coo.size_select c ax _).2
  | rep ax k vbv =>
    obtain ⟨a, b, e, f⟩ := Coo.C18_repeat h.wf ax k vbv
    exact ⟨holds_withSize h a (b.trans (by rw [h.size])) e (by rw [← h.data]; exact f), rfl⟩
  | uniq ax =>
    obtain ⟨a, f⟩ := Coo.C18_unique h.wf ax
    have hs := Coo.sortInternal_spec h.wf.toCore ax false false (fun _ => h.wf)
    have hidx : Coo.uniqueIdx ax (c.sortInternal ax false).ents (List.range ((c.sortInternal ax false).size ax)) []
        = uniqueLoop (Coo.vectors ax (t.size ax) t.data) 0 [] := by
      rw [← h.size, ← h.data, ← hs.dense h.wf.nodup, ← hs.size ax, Coo.vectors_dense, List.range_eq_range']
      simpa using Coo.uniqueIdx_eq hs.wf hs.sorted ((c.sortInternal ax false).size ax) 0 []
    refine ⟨holds_withSize h a ?_ ?_ (by rw [← h.data, ← h.size]; exact f), rfl⟩
    · rw [← hidx]; exact (Coo.size_select _ ax _).1
    · exact (Coo.size_select _ ax _).2.trans (hs.size _)
  | scalar f =>
    obtain ⟨a, b, d, e⟩ := Coo.C18_scalarStored h.wf f hv
    exact ⟨⟨a, b.trans h.rows, d.trans h.cols, e.trans (by rw [h.data]; rfl)⟩, rfl⟩

/-- Whatever sequence of element reads, assignments, transpositions, permutations, insertions,
selections, deletions, repetitions, de-duplications and zero-preserving scalar operations is applied to
a Sparse object: every value read and the final table are those of the dense representation, and the
object stays proper.  Rectangle replacement and element transformation are left out because they break
it (`C18_replaceZeros_stale_violated`, `C18_transform_stale_violated`). -/
theorem C18_history_partial [Zero V] [DecidableEq V] (ops : List (Op V)) {c : Coo V} {t : Tab V}
    (h : Holds c t) (hv : ValidRun t ops) :
    (runSparse c ops).2 = (runDense t ops).2 ∧ Holds (runSparse c ops).1 (runDense t ops).1 := by
  induction ops generalizing c t with
  | nil => exact ⟨rfl, h⟩
  | cons op ops ih =>
    obtain ⟨h1, h2⟩ := op_holds h hv.1
    obtain ⟨h3, h4⟩ := ih h1 hv.2
    refine ⟨?_, h4⟩
    show _ :: _ = _ :: _
    rw [h2, h3]

/-- A history meeting the hypotheses. -/
theorem C18_history_example :
    Holds (Coo.ofDense 2 [[1, 0], [0, 4]]) (⟨2, 2, [[1, 0], [0, 4]]⟩ : Tab Int) ∧
    ValidRun (⟨2, 2, [[1, 0], [0, 4]]⟩ : Tab Int) [.get 0 0, .set 0 1 5, .permute .point [1, 0],
      .rep .feature 2 true, .keep .feature [3, 0], .transpose, .get 1 0] ∧
    (runDense (⟨2, 2, [[1, 0], [0, 4]]⟩ : Tab Int) [.get 0 0, .set 0 1 5, .permute .point [1, 0],
      .rep .feature 2 true, .keep .feature [3, 0], .transpose, .get 1 0]).1.data = [[4, 5], [0, 1]] := by
  refine ⟨⟨(Coo.C18_ofDense (by decide)).1, rfl, rfl, (Coo.C18_ofDense (by decide)).2⟩, ?_, by decide +kernel⟩
  refine ⟨⟨by decide, by decide⟩, ⟨by decide, by decide⟩, ?_, trivial, ?_, trivial, ⟨by decide, by decide⟩, trivial⟩
  · show [1, 0].Perm (List.range 2)
    decide
  · show ∀ i ∈ [3, 0], i < _
    decide

end Sp
end Nimble
