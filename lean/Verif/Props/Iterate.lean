import Verif.Model.Iterate
import Verif.Props.GetItem
import Verif.Props.SparseMore

/-!
# C87: going through the elements
-/

namespace Nimble.Iter
open Nimble.Match

variable {V : Type}

/-! ### Specification -/

/-- Row by row or column by column. -/
def Before (ax : Ax) (p q : Nat × Nat) : Prop :=
  match ax with
  | .point => p.1 < q.1 ∨ (p.1 = q.1 ∧ p.2 < q.2)
  | .feature => p.2 < q.2 ∨ (p.2 = q.2 ∧ p.1 < q.1)

/-- The iterator gives, one per call, exactly the accepted elements of the table, each once and in the order; after
the last one every call says that there is no more. -/
def Yields (it : It V) (ax : Ax) (table : Nat → Nat → Option V) (acc : V → Prop) : Prop :=
  ∃ ps : List (Nat × Nat), ps.Pairwise (Before ax) ∧
    (∀ i j, (i, j) ∈ ps ↔ ∃ v, table i j = some v ∧ acc v) ∧
    ∀ k : Nat, it.nth k = .ok (ps[k]?.bind (fun p => table p.1 p.2))

/-- The name of an order. -/
def OrderArg.Names : OrderArg → Ax → Prop
  | .str s, .point => s = "point"
  | .str s, .feature => s = "feature"
  | .other, _ => False

/-- `only` answers, for the elements of the table: everything is accepted if there is none. -/
def OnlyArg.Answers (only : OnlyArg V) (table : Nat → Nat → Option V) (acc : V → Bool) : Prop :=
  match only with
  | .none => ∀ v, acc v = true
  | .call f => ∀ i j v, table i j = some v → f v = .ok (acc v)
  | .other => False

/-! ### Proofs -/

theorem nth_nil (only : Option (V → Res Bool)) (k : Nat) : It.nth ⟨[], only⟩ k = .ok none := by
  induction k with
  | zero => rfl
  | succ k ih => exact ih

theorem nth_eq {only : Option (V → Res Bool)} {p : V → Bool} {l : List V} (h : ∀ v ∈ l, accepts only v = .ok (p v))
    (k : Nat) : It.nth ⟨l, only⟩ k = .ok ((l.filter p)[k]?) := by
  induction l generalizing k with
  | nil => rw [nth_nil]; simp
  | cons v vs ih =>
    have h1 := h v (by simp)
    have h2 := ih (fun w hw => h w (by simp [hw]))
    cases hp : p v with
    | true =>
      rw [hp] at h1
      have hn : nextIn only (v :: vs) = (vs, .ok (some v)) := by simp only [nextIn, h1]
      cases k with
      | zero => simp [It.nth, It.next, hn, hp]
      | succ k =>
        have : It.nth ⟨v :: vs, only⟩ (k + 1) = It.nth ⟨vs, only⟩ k := by simp only [It.nth, It.next, hn]
        rw [this, h2]; simp [hp]
    | false =>
      rw [hp] at h1
      have hn : nextIn only (v :: vs) = nextIn only vs := by simp only [nextIn, h1]
      have : It.nth ⟨v :: vs, only⟩ k = It.nth ⟨vs, only⟩ k := by
        cases k <;> simp only [It.nth, It.next, hn]
      rw [this, h2]; simp [hp]

theorem filterMap_nth {A B : Type} (g : A → Option B) (p : B → Bool) (L : List A) (k : Nat) :
    ((L.filterMap g).filter p)[k]? = (L.filter (fun x => (g x).any p))[k]?.bind g := by
  induction L generalizing k with
  | nil => simp
  | cons a L ih =>
    cases hg : g a with
    | none => simp [hg, ih]
    | some b =>
      cases hb : p b with
      | false => simp [hg, hb, ih]
      | true => cases k with
        | zero => simp [hg, hb]
        | succ k => simp [hg, hb, ih]

theorem mem_visit {ax : Ax} {nP nF i j : Nat} : (i, j) ∈ visit ax nP nF ↔ i < nP ∧ j < nF := by
  cases ax
  · simp [visit]
  · simp [visit]; tauto

theorem pairwise_visit (ax : Ax) (nP nF : Nat) : (visit ax nP nF).Pairwise (Before ax) := by
  cases ax
  · show ((List.range nP).flatMap _).Pairwise _
    rw [List.flatMap_def, List.pairwise_flatten]
    refine ⟨?_, ?_⟩
    · intro l hl
      obtain ⟨i, -, rfl⟩ := List.mem_map.1 hl
      rw [List.pairwise_map]
      exact List.pairwise_lt_range.imp (fun {a b} hab => .inr ⟨rfl, hab⟩)
    · rw [List.pairwise_map]
      refine List.pairwise_lt_range.imp ?_
      intro a b hab x hx y hy
      obtain ⟨_, -, rfl⟩ := List.mem_map.1 hx
      obtain ⟨_, -, rfl⟩ := List.mem_map.1 hy
      exact .inl hab
  · show ((List.range nF).flatMap _).Pairwise _
    rw [List.flatMap_def, List.pairwise_flatten]
    refine ⟨?_, ?_⟩
    · intro l hl
      obtain ⟨i, -, rfl⟩ := List.mem_map.1 hl
      rw [List.pairwise_map]
      exact List.pairwise_lt_range.imp (fun {a b} hab => .inr ⟨rfl, hab⟩)
    · rw [List.pairwise_map]
      refine List.pairwise_lt_range.imp ?_
      intro a b hab x hx y hy
      obtain ⟨_, -, rfl⟩ := List.mem_map.1 hx
      obtain ⟨_, -, rfl⟩ := List.mem_map.1 hy
      exact .inl hab

theorem yields_visit {ax : Ax} {nP nF : Nat} {table : Nat → Nat → Option V} {acc : V → Bool} {only : Option (V → Res Bool)}
    (ht : ∀ i j v, table i j = some v → i < nP ∧ j < nF) (h : ∀ i j v, table i j = some v → accepts only v = .ok (acc v)) :
    Yields ⟨(visit ax nP nF).filterMap (fun p => table p.1 p.2), only⟩ ax table (fun v => acc v = true) := by
  refine ⟨(visit ax nP nF).filter (fun p => (table p.1 p.2).any acc), (pairwise_visit ax nP nF).filter _, ?_, ?_⟩
  · intro i j
    rw [List.mem_filter, mem_visit]
    constructor
    · rintro ⟨-, h2⟩
      cases hv : table i j with
      | none => simp [hv] at h2
      | some v => exact ⟨v, rfl, by simpa [hv] using h2⟩
    · rintro ⟨v, hv, ha⟩
      exact ⟨ht i j v hv, by simp [hv, ha]⟩
  · intro k
    rw [nth_eq (p := acc) ?_, filterMap_nth]
    intro v hv
    obtain ⟨p, -, hp⟩ := List.mem_filterMap.1 hv
    exact h _ _ _ hp

theorem checkArgs_ok {ord : OrderArg} {only : OnlyArg V} {ax : Ax} {table : Nat → Nat → Option V} {acc : V → Bool}
    (ho : ord.Names ax) (ha : only.Answers table acc) :
    ∃ f, checkArgs ord only = .ok (ax, f) ∧ (∀ i j v, table i j = some v → accepts f v = .ok (acc v)) ∧
      (∀ g, only = .call g ↔ f = some g) := by
  cases ord with
  | other => exact ho.elim
  | str s =>
    cases only with
    | other => exact ha.elim
    | none =>
      refine ⟨none, ?_, fun i j v _ => ?_, by simp⟩
      · cases ax <;> (have ho : s = _ := ho; subst ho; rfl)
      · have ha : ∀ v, acc v = true := ha
        rw [ha]; rfl
    | call f =>
      refine ⟨some f, ?_, fun i j v hv => ha i j v hv, by simp⟩
      cases ax <;> (have ho : s = _ := ho; subst ho; rfl)

theorem elem?_lt {o : Obj V} (h : o.WF) {i j : Nat} {v : V} (hv : o.elem? i j = some v) : i < o.pts.len ∧ j < o.fts.len := by
  unfold Obj.elem? at hv
  cases hr : o.data[i]? with
  | none => simp [hr] at hv
  | some r =>
    rw [hr] at hv
    have h1 : i < o.data.length := (List.getElem?_eq_some_iff.1 hr).1
    have h2 : r ∈ o.data := List.mem_of_getElem? hr
    have h3 : j < r.length := by
      have hv : r[j]? = some v := hv
      exact (List.getElem?_eq_some_iff.1 hv).1
    exact ⟨h.rows ▸ h1, h.cols r h2 ▸ h3⟩

/-- **C87** `iterateElements` of List, Matrix and DataFrame. -/
theorem C87_iterate {o : Obj V} (h : o.WF) {ord : OrderArg} {ax : Ax} (ho : ord.Names ax) {only : OnlyArg V}
    {acc : V → Bool} (ha : only.Answers o.elem? acc) :
    ∃ it, iterate o ord only = .ok it ∧ Yields it ax o.elem? (fun v => acc v = true) := by
  obtain ⟨f, h1, h2, -⟩ := checkArgs_ok ho ha
  refine ⟨⟨elementsIn o ax, f⟩, by simp only [iterate, h1, bind, Except.bind, pure, Except.pure], ?_⟩
  exact yields_visit (fun i j v hv => elem?_lt h hv) h2

/-- **C87** a wrong `order` or `only` is refused. -/
theorem C87_iterate_refused (o : Obj V) (ord : OrderArg) (only : OnlyArg V) :
    (∃ e, iterate o ord only = .error e) ↔ (∀ ax, ¬ ord.Names ax) ∨ only = .other := by
  cases ord with
  | other => simp [iterate, checkArgs, bind, Except.bind, OrderArg.Names]
  | str s =>
    by_cases h1 : s = "point"
    · subst h1
      cases only <;> simp [iterate, checkArgs, bind, Except.bind, pure, Except.pure] <;>
        exact ⟨.point, rfl⟩
    · by_cases h2 : s = "feature"
      · subst h2
        cases only <;> simp [iterate, checkArgs, bind, Except.bind, pure, Except.pure] <;>
          exact ⟨.feature, rfl⟩
      · simp only [iterate, checkArgs, if_neg h1, if_neg h2, bind, Except.bind]
        constructor
        · intro _
          left
          intro ax
          cases ax
          · exact h1
          · exact h2
        · intro _; exact ⟨_, rfl⟩

/-! ### Sparse -/

/-- The table of a Sparse object. -/
def sparseTable [Zero V] (c : Sp.Coo V) (i j : Nat) : Option V :=
  if i < c.rows ∧ j < c.cols then some (c.at i j) else none

theorem arrayAt_eq [Zero V] {c : Sp.Coo V} (h : c.Core) (i j : Nat) : arrayAt c i j = c.at i j := by
  have h2 : (⟨c.rows, c.cols, c.ents.reverse, none, none⟩ : Sp.Coo V).at i j = c.at i j :=
    Sp.Coo.at_perm h.nodup (List.reverse_perm _) i j
  rw [← h2]
  unfold arrayAt Sp.Coo.at Sp.Ent.pos
  simp only [Prod.mk.injEq]

theorem sorted_before {ax : Ax} {l : List (Sp.Ent V)} (hs : l.Pairwise (fun a b => Sp.Coo.lexLe ax a b = true))
    (hn : (l.map Sp.Ent.pos).Nodup) : (l.map Sp.Ent.pos).Pairwise (Before ax) := by
  rw [List.pairwise_map]
  have hn : l.Pairwise (fun a b => a.pos ≠ b.pos) := List.pairwise_map.1 hn
  refine (hs.and hn).imp ?_
  rintro a b ⟨h1, h2⟩
  simp only [Sp.Coo.lexLe, Bool.or_eq_true, Bool.and_eq_true, decide_eq_true_eq] at h1
  have h2 : ¬ (a.row = b.row ∧ a.col = b.col) := by simpa [Sp.Ent.pos] using h2
  cases ax <;> simp only [Sp.Ent.on, Ax.off, Before, Sp.Ent.pos] at * <;> omega

/-- **C87** `iterateElements` of Sparse gives what it gives for the dense object, whatever the internal order of the
entries; the object keeps its elements and stays sound.  `only` must answer for 0 even if no element is zero. -/
theorem C87_iterate_sparse [Zero V] {c : Sp.Coo V} (h : c.WF) {ord : OrderArg} {ax : Ax} (ho : ord.Names ax) {only : OnlyArg V}
    {acc : V → Bool} (ha : only.Answers (sparseTable c) acc) (h0 : ∀ f, only = .call f → f 0 = .ok (acc 0)) :
    ∃ it, (sparseIterate c ord only).2 = .ok it ∧ Yields it ax (sparseTable c) (fun v => acc v = true) ∧
      (sparseIterate c ord only).1.WF ∧ (sparseIterate c ord only).1.dense = c.dense ∧
      (sparseIterate c ord only).1.rows = c.rows ∧ (sparseIterate c ord only).1.cols = c.cols := by
  obtain ⟨f, h1, h2, h3⟩ := checkArgs_ok ho ha
  have hi : ∃ b, ignoreZeros f = .ok b ∧ (b = true → acc 0 = false ∧ ∃ g, f = some g) := by
    cases f with
    | none => exact ⟨false, rfl, by simp⟩
    | some g =>
      have := h0 g ((h3 g).2 rfl)
      exact ⟨!acc 0, by simp [ignoreZeros, this, Except.map], fun hb => ⟨by simpa using hb, g, rfl⟩⟩
  obtain ⟨b, hb, hb2⟩ := hi
  cases b with
  | false =>
    have he : sparseIterate c ord only = (c, .ok ⟨(visit ax c.rows c.cols).map (fun p => arrayAt c p.1 p.2), f⟩) := by
      simp only [sparseIterate, h1, hb]
    rw [he]
    refine ⟨_, rfl, ?_, h, rfl, rfl, rfl⟩
    have hm : (visit ax c.rows c.cols).map (fun p => arrayAt c p.1 p.2) =
        (visit ax c.rows c.cols).filterMap (fun p => sparseTable c p.1 p.2) := by
      rw [← List.filterMap_eq_map]
      refine List.filterMap_congr ?_
      rintro ⟨i, j⟩ hp
      have hp := mem_visit.1 hp
      simp only [Function.comp, sparseTable, if_pos hp, arrayAt_eq h.toCore]
    rw [hm]
    refine yields_visit ?_ h2
    intro i j v hv
    unfold sparseTable at hv
    split at hv
    · assumption
    · cases hv
  | true =>
    obtain ⟨hz, g, hg⟩ := hb2 rfl
    have hs := Sp.Coo.sortInternal_spec h.toCore ax false false (fun _ => h)
    generalize hd : c.sortInternal ax false = d at hs
    have he : sparseIterate c ord only = (d, .ok ⟨d.ents.map Sp.Ent.val, f⟩) := by
      simp only [sparseIterate, h1, hb, hd]
    rw [he]
    refine ⟨_, rfl, ?_, hs.wf, hs.dense h.nodup, hs.rows, hs.cols⟩
    have ht : ∀ e ∈ d.ents, sparseTable c e.row e.col = some e.val := by
      intro e he
      have he : e ∈ c.ents := hs.perm.mem_iff.1 he
      unfold sparseTable
      rw [if_pos ⟨h.row_lt e he, h.col_lt e he⟩, Sp.Coo.at_of_mem h.nodup he]
    refine ⟨(d.ents.filter (fun e => acc e.val)).map Sp.Ent.pos, ?_, ?_, ?_⟩
    · refine List.Pairwise.sublist ?_ (sorted_before (hs.wf.sorted_ok ax hs.sorted) hs.wf.nodup)
      exact List.filter_sublist.map _
    · intro i j
      constructor
      · intro hm
        obtain ⟨e, he, hp⟩ := List.mem_map.1 hm
        obtain ⟨he, hacc⟩ := List.mem_filter.1 he
        obtain ⟨rfl, rfl⟩ : e.row = i ∧ e.col = j := by simpa [Sp.Ent.pos] using hp
        exact ⟨_, ht e he, hacc⟩
      · rintro ⟨v, hv, hacc⟩
        unfold sparseTable at hv
        split at hv
        · cases hv
          have hne : c.at i j ≠ 0 := by
            intro h0
            rw [h0, hz] at hacc
            cases hacc
          refine List.mem_map.2 ⟨⟨i, j, c.at i j⟩, List.mem_filter.2 ⟨?_, hacc⟩, rfl⟩
          exact hs.perm.mem_iff.2 ((Sp.Coo.mem_iff_at h.toCore hne).2 rfl)
        · cases hv
    · intro k
      rw [nth_eq (p := acc) ?_]
      · congr 1
        rw [List.filter_map, List.getElem?_map, List.getElem?_map]
        have : (acc ∘ Sp.Ent.val : Sp.Ent V → Bool) = fun e => acc e.val := rfl
        rw [this]
        cases hk : (d.ents.filter (fun e => acc e.val))[k]? with
        | none => rfl
        | some e =>
          have he : e ∈ d.ents := (List.mem_filter.1 (List.mem_of_getElem? hk)).1
          exact (ht e he).symm
      · intro v hv
        obtain ⟨e, he, rfl⟩ := List.mem_map.1 hv
        exact h2 _ _ _ (ht e he)

/-- **C87 violated (Sparse).**  The function `1 / v > 0` answers for every element of a table without zeros, and a
dense object gives them; the Sparse object asks it about 0 and raises. -/
theorem C87_iterate_sparse_zero_violated :
    let f : Int → Res Bool := fun v => if v = 0 then .error .ZeroDivisionError else .ok (decide (0 < v))
    let o : Obj Int := ⟨[[3, -2]], ⟨1, none⟩, ⟨2, none⟩⟩
    let c : Sp.Coo Int := ⟨1, 2, [⟨0, 0, 3⟩, ⟨0, 1, -2⟩], none, none⟩
    c.dense = o.data ∧ (∃ it, iterate o (.str "point") (.call f) = .ok it ∧ it.nth 0 = .ok (some 3) ∧ it.nth 1 = .ok none) ∧
      (sparseIterate c (.str "point") (.call f)).2 = .error .ZeroDivisionError := by
  intro f o c
  exact ⟨by decide, ⟨_, rfl, rfl, rfl⟩, rfl⟩

/-! ### Counting: specification -/

/-- Missing values are taken as the same value, otherwise Python's `==` decides. -/
def Same (a b : Val) : Bool := pyEq a b || (decide (∃ np, a = .flt np .nan) && decide (∃ np, b = .flt np .nan))

/-- The dictionary counts the values: its keys are different, every value has a key, and the number of a key is how
often its value occurs. -/
structure Tally (d : List (Val × Nat)) (vals : List Val) : Prop where
  counts : ∀ k n, (k, n) ∈ d → 0 < n ∧ n = vals.countP (Same k)
  covers : ∀ v ∈ vals, ∃ k n, (k, n) ∈ d ∧ Same k v = true
  keys : d.Pairwise (fun a b => Same a.1 b.1 = false)

/-! ### Proofs -/

/-- What a value is, number types aside. -/
def kind : Val → Option (Flt ⊕ String)
  | .none => none
  | .str s => some (.inr s)
  | .bool _ b => some (.inl (.fin (if b then 1 else 0)))
  | .int _ i => some (.inl (.fin i))
  | .flt _ f => some (.inl f)

theorem Flt_eq_iff (a b : Flt) : a.eq b = true ↔ a = b ∧ a ≠ .nan := by
  cases a <;> cases b <;> simp [Flt.eq]

theorem pyEq_iff (a b : Val) : pyEq a b = true ↔ kind a = kind b ∧ kind a ≠ some (.inl .nan) := by
  cases a <;> cases b <;> simp [pyEq, kind, numEq, Val.num, Flt_eq_iff]

theorem nan_iff (a : Val) : (∃ np, a = .flt np .nan) ↔ kind a = some (.inl .nan) := by
  cases a <;> simp [kind]

theorem isNan_iff (a : Val) : isNan a = true ↔ kind a = some (.inl .nan) := by
  unfold isNan
  rw [Bool.not_eq_true', ← Bool.not_eq_true, pyEq_iff]
  simp

theorem Same_iff (a b : Val) : Same a b = true ↔ kind a = kind b := by
  unfold Same
  rw [Bool.or_eq_true, Bool.and_eq_true, pyEq_iff, decide_eq_true_eq, decide_eq_true_eq, nan_iff, nan_iff]
  constructor
  · rintro (h | h)
    · exact h.1
    · rw [h.1, h.2]
  · intro h
    by_cases hn : kind a = some (.inl .nan)
    · exact .inr ⟨hn, h ▸ hn⟩
    · exact .inl ⟨h, hn⟩

variable {A : Type}

/-- The sum of the numbers of the keys with a property. -/
def mass (p : A → Bool) (d : List (A × Nat)) : Nat := ((d.filter (fun e => p e.1)).map Prod.snd).sum

theorem mass_nil (p : A → Bool) : mass p [] = 0 := rfl

theorem mass_cons (p : A → Bool) (e : A × Nat) (d : List (A × Nat)) :
    mass p (e :: d) = (if p e.1 then e.2 else 0) + mass p d := by
  unfold mass
  cases h : p e.1 <;> simp [h]

theorem mass_append (p : A → Bool) (d d' : List (A × Nat)) : mass p (d ++ d') = mass p d + mass p d' := by
  simp [mass]

theorem keys_modify (q : A → Bool) (g : Nat → Nat) (d : List (A × Nat)) :
    (d.map (fun x => if q x.1 then (x.1, g x.2) else x)).map Prod.fst = d.map Prod.fst := by
  rw [List.map_map]
  apply List.map_congr_left
  intro x _
  simp only [Function.comp]
  split <;> rfl

theorem mass_add_none (q p : A → Bool) (n : Nat) {d : List (A × Nat)} (h : ∀ x ∈ d, q x.1 = false) :
    mass p (d.map (fun x => if q x.1 then (x.1, x.2 + n) else x)) = mass p d := by
  congr 1
  conv_rhs => rw [← List.map_id d]
  apply List.map_congr_left
  intro x hx
  simp [h x hx]

theorem mass_add (q p : A → Bool) (n : Nat) (b : Bool) {d : List (A × Nat)}
    (h1 : (d.map Prod.fst).Pairwise (fun x y => q x = true → q y = false)) (h2 : d.any (fun x => q x.1) = true)
    (h3 : ∀ x ∈ d, q x.1 = true → p x.1 = b) :
    mass p (d.map (fun x => if q x.1 then (x.1, x.2 + n) else x)) = mass p d + if b then n else 0 := by
  induction d with
  | nil => simp at h2
  | cons x d ih =>
    rw [List.map_cons, List.pairwise_cons] at h1
    rw [List.map_cons, mass_cons, mass_cons]
    cases hq : q x.1 with
    | true =>
      have hr : mass p (d.map (fun x => if q x.1 then (x.1, x.2 + n) else x)) = mass p d :=
        mass_add_none q p n (fun y hy => h1.1 y.1 (List.mem_map.2 ⟨y, hy, rfl⟩) hq)
      rw [hr, if_pos rfl, h3 x (by simp) hq]
      cases b <;> simp <;> omega
    | false =>
      rw [ih h1.2 (by simpa [hq] using h2) (fun y hy => h3 y (by simp [hy]))]
      simp only [Bool.false_eq_true, if_false]
      omega

theorem pos_add (q : A → Bool) (n : Nat) {d : List (A × Nat)} (h : ∀ e ∈ d, 0 < e.2) :
    ∀ e ∈ d.map (fun x => if q x.1 then (x.1, x.2 + n) else x), 0 < e.2 := by
  intro e he
  obtain ⟨x, hx, rfl⟩ := List.mem_map.1 he
  have := h x hx
  by_cases hq : q x.1 = true
  · simp only [if_pos hq]; omega
  · simp only [if_neg hq]; exact this

/-- What counting by a relation that is symmetric and transitive keeps true. -/
structure Counted (same : A → A → Bool) (d : List (A × Nat)) (l : List A) : Prop where
  keys : (d.map Prod.fst).Pairwise (fun a b => same a b = false)
  pos : ∀ e ∈ d, 0 < e.2
  mass : ∀ p : A → Bool, (∀ a b, same a b = true → p a = p b) → mass p d = l.countP p
  sub : ∀ e ∈ d, e.1 ∈ l

theorem bump_counted {same : A → A → Bool} (hs : ∀ a b, same a b = true → same b a = true)
    (ht : ∀ a b c, same a b = true → same b c = true → same a c = true) {d : List (A × Nat)} {l : List A}
    (h : Counted same d l) (a : A) : Counted same (bump same d a) (l ++ [a]) := by
  unfold bump
  cases hany : d.any (fun p => same p.1 a) with
  | true =>
    rw [if_pos rfl]
    refine ⟨?_, pos_add (fun x => same x a) 1 h.pos, ?_, ?_⟩
    · rw [keys_modify (fun x => same x a) (· + 1)]; exact h.keys
    · intro p hp
      rw [mass_add (fun x => same x a) p 1 (p a) ?_ hany (fun x _ hx => hp _ _ hx), h.mass p hp, List.countP_append]
      · simp [List.countP_cons]
      · refine h.keys.imp ?_
        intro x y hxy hx
        cases hy : same y a with
        | false => rfl
        | true => rw [ht x a y hx (hs _ _ hy)] at hxy; cases hxy
    · intro e he
      obtain ⟨x, hx, rfl⟩ := List.mem_map.1 he
      have := h.sub x hx
      split <;> simp [this]
  | false =>
    rw [if_neg (by simp)]
    have hn : ∀ x ∈ d, same x.1 a = false := by simpa using hany
    refine ⟨?_, ?_, ?_, ?_⟩
    · rw [List.map_append, List.pairwise_append]
      refine ⟨h.keys, by simp, ?_⟩
      intro x hx y hy
      obtain ⟨e, he, rfl⟩ := List.mem_map.1 hx
      obtain rfl : y = a := by simpa using hy
      exact hn e he
    · intro e he
      rcases List.mem_append.1 he with he | he
      · exact h.pos e he
      · obtain rfl : e = (a, 1) := by simpa using he
        simp
    · intro p hp
      rw [mass_append, h.mass p hp, List.countP_append, mass_cons, mass_nil]
      simp [List.countP_cons]
    · intro e he
      rcases List.mem_append.1 he with he | he
      · simp [h.sub e he]
      · obtain rfl : e = (a, 1) := by simpa using he
        simp

theorem npUnique_counted {same : A → A → Bool} (hs : ∀ a b, same a b = true → same b a = true)
    (ht : ∀ a b c, same a b = true → same b c = true → same a c = true) (l : List A) :
    Counted same (npUnique same l) l := by
  have key : ∀ (l l' : List A) (d : List (A × Nat)), Counted same d l' → Counted same (l.foldl (bump same) d) (l' ++ l) := by
    intro l
    induction l with
    | nil => intro l' d h; simpa using h
    | cons a l ih =>
      intro l' d h
      have := ih (l' ++ [a]) _ (bump_counted hs ht h a)
      simpa using this
  have := key l [] [] ⟨by simp, by simp, fun p _ => rfl, by simp⟩
  simpa [npUnique] using this

theorem tally_of_mass {d : List (Val × Nat)} {vals : List Val} (h1 : (d.map Prod.fst).Pairwise (fun a b => Same a b = false))
    (h2 : ∀ e ∈ d, 0 < e.2) (h3 : ∀ p : Val → Bool, (∀ a b, Same a b = true → p a = p b) → mass p d = vals.countP p) :
    Tally d vals := by
  have hcompat : ∀ k a b, Same a b = true → Same k a = Same k b := by
    intro k a b hab
    rw [Same_iff] at hab
    rw [Bool.eq_iff_iff, Same_iff, Same_iff, hab]
  refine ⟨?_, ?_, List.pairwise_map.1 h1⟩
  · intro k n hk
    refine ⟨h2 _ hk, ?_⟩
    rw [← h3 (Same k) (hcompat k)]
    clear h2 h3
    induction d with
    | nil => simp at hk
    | cons x d ih =>
      rw [List.map_cons, List.pairwise_cons] at h1
      rw [mass_cons]
      rcases List.mem_cons.1 hk with rfl | hk
      · have h0 : mass (Same k) d = 0 := by
          unfold mass
          rw [List.filter_eq_nil_iff.2]
          · rfl
          · intro e he
            have := h1.1 e.1 (List.mem_map.2 ⟨e, he, rfl⟩)
            simpa using this
        have hkk : Same k k = true := (Same_iff k k).2 rfl
        simp [h0, hkk]
      · have : Same k x.1 = false := by
          have := h1.1 k (List.mem_map.2 ⟨_, hk, rfl⟩)
          rw [Bool.eq_false_iff, Ne, Same_iff] at this ⊢
          exact fun h => this h.symm
        rw [this, ← ih h1.2 hk]
        simp
  · intro v hv
    have hpos : 0 < vals.countP (Same v) := List.countP_pos_iff.2 ⟨v, hv, (Same_iff v v).2 rfl⟩
    rw [← h3 (Same v) (hcompat v)] at hpos
    cases hd : d.filter (fun e => Same v e.1) with
    | nil => simp [mass, hd] at hpos
    | cons e r =>
      have he : e ∈ d.filter (fun e => Same v e.1) := by rw [hd]; simp
      obtain ⟨he, hs⟩ := List.mem_filter.1 he
      refine ⟨e.1, e.2, he, ?_⟩
      rw [Same_iff] at hs ⊢
      exact hs.symm

/-- The numbers of a tally add up to the number of values. -/
theorem mass_total {d : List (Val × Nat)} {vals : List Val} (h : Tally d vals) : (d.map Prod.snd).sum = vals.length := by
  induction d generalizing vals with
  | nil =>
    cases vals with
    | nil => rfl
    | cons v vs => obtain ⟨k, n, hk, -⟩ := h.covers v (by simp); simp at hk
  | cons e d ih =>
    have h1 := (h.counts e.1 e.2 (by simp)).2
    have hk := List.pairwise_cons.1 h.keys
    have h2 : Tally d (vals.filter (fun v => !Same e.1 v)) := by
      refine ⟨?_, ?_, hk.2⟩
      · intro k n hkn
        have h3 := h.counts k n (by simp [hkn])
        refine ⟨h3.1, ?_⟩
        rw [List.countP_filter, h3.2]
        apply List.countP_congr
        intro v _
        rw [Bool.and_eq_true]
        constructor
        · intro hv
          refine ⟨hv, ?_⟩
          have hek := hk.1 (k, n) hkn
          rw [Bool.not_eq_true', Bool.eq_false_iff, Ne, Same_iff]
          rw [Bool.eq_false_iff, Ne, Same_iff] at hek
          rw [Same_iff] at hv
          intro hc
          exact hek (hc.trans hv.symm)
        · exact fun hv => hv.1
      · intro v hv
        obtain ⟨hv, hne⟩ := List.mem_filter.1 hv
        obtain ⟨k, n, hkn, hs⟩ := h.covers v hv
        rcases List.mem_cons.1 hkn with rfl | hkn
        · simp [hs] at hne
        · exact ⟨k, n, hkn, hs⟩
    rw [List.map_cons, List.sum_cons, ih h2, h1]
    rw [← List.countP_eq_length_filter]
    have := List.length_eq_countP_add_countP (fun v => Same e.1 v) (l := vals)
    simp only [Bool.not_eq_true, Bool.decide_eq_false] at this
    exact this.symm

theorem uniqEq_iff (c : Bool) (a b : Val) : uniqEq c a b = true ↔ kind a = kind b ∧ (c = true ∨ kind a ≠ some (.inl .nan)) := by
  unfold uniqEq
  rw [Bool.or_eq_true, Bool.and_eq_true, Bool.and_eq_true, pyEq_iff, isNan_iff, isNan_iff]
  constructor
  · rintro (h | h)
    · exact ⟨h.1, .inr h.2⟩
    · exact ⟨by rw [h.1.2, h.2], .inl h.1.1⟩
  · rintro ⟨h1, h2⟩
    by_cases hn : kind a = some (.inl .nan)
    · rcases h2 with h2 | h2
      · exact .inr ⟨⟨h2, hn⟩, h1 ▸ hn⟩
      · exact absurd hn h2
    · exact .inl ⟨h1, hn⟩

/-- The loop over the distinct values of a number array: `u` is still to come. -/
theorem numLoop_spec {u d : List (Val × Nat)} (hu : (u.map Prod.fst).Pairwise (fun a b => pyEq a b = false))
    (hd : (d.map Prod.fst).Pairwise (fun a b => Same a b = false))
    (hdu : ∀ e ∈ d, ∀ x ∈ u, pyEq e.1 x.1 = false) (hp : ∀ e ∈ d, 0 < e.2) (hp2 : ∀ e ∈ u, 0 < e.2) :
    ((numLoop d u).map Prod.fst).Pairwise (fun a b => Same a b = false) ∧ (∀ e ∈ numLoop d u, 0 < e.2) ∧
      ∀ p : Val → Bool, (∀ a b, Same a b = true → p a = p b) → mass p (numLoop d u) = mass p d + mass p u := by
  induction u generalizing d with
  | nil => exact ⟨hd, hp, fun p _ => by simp [numLoop, mass_nil]⟩
  | cons x u ih =>
    obtain ⟨k, n⟩ := x
    rw [List.map_cons, List.pairwise_cons] at hu
    have hn : 0 < n := hp2 (k, n) (by simp)
    have hp2' : ∀ e ∈ u, 0 < e.2 := fun e he => hp2 e (by simp [he])
    unfold numLoop
    cases hk : isNan k with
    | true =>
      rw [if_pos rfl]
      have hkn := (isNan_iff k).1 hk
      cases hany : d.any (fun p => isNan p.1) with
      | true =>
        have e : addNan d n = d.map (fun x => if isNan x.1 then (x.1, x.2 + n) else x) := by
          unfold addNan; rw [if_pos hany]
        obtain ⟨i1, i2, i3⟩ := ih (d := addNan d n) hu.2 (by rw [e, keys_modify isNan (· + n)]; exact hd) (by
          intro e' he' y hy
          rw [e] at he'
          obtain ⟨z, hz, rfl⟩ := List.mem_map.1 he'
          have := hdu z hz y (by simp [hy])
          split <;> exact this) (by rw [e]; exact pos_add isNan n hp) hp2'
        refine ⟨i1, i2, fun p hc => ?_⟩
        rw [i3 p hc, e, mass_add isNan p n (p k) ?_ hany ?_, mass_cons]
        · dsimp only; omega
        · refine hd.imp ?_
          intro a b hab ha
          rw [Bool.eq_false_iff, Ne, isNan_iff]
          rw [Bool.eq_false_iff, Ne, Same_iff] at hab
          rw [isNan_iff] at ha
          intro hb
          exact hab (ha.trans hb.symm)
        · intro y _ hy
          refine hc _ _ ?_
          rw [Same_iff, (isNan_iff y.1).1 hy, hkn]
      | false =>
        have hno : ∀ e ∈ d, isNan e.1 = false := by simpa using hany
        have e : addNan d n = d ++ [(.flt false .nan, n)] := by
          unfold addNan; rw [if_neg (by simp [hany])]
        obtain ⟨i1, i2, i3⟩ := ih (d := addNan d n) hu.2 (by
          rw [e, List.map_append, List.pairwise_append]
          refine ⟨hd, by simp, ?_⟩
          intro a ha b hb
          obtain ⟨z, hz, rfl⟩ := List.mem_map.1 ha
          obtain rfl : b = .flt false .nan := by simpa using hb
          have := hno z hz
          rw [Bool.eq_false_iff, Ne, isNan_iff] at this
          rw [Bool.eq_false_iff, Ne, Same_iff]
          exact this) (by
          intro e' he' y hy
          rw [e] at he'
          rcases List.mem_append.1 he' with he' | he'
          · exact hdu e' he' y (by simp [hy])
          · obtain rfl : e' = (.flt false .nan, n) := by simpa using he'
            rw [Bool.eq_false_iff, Ne, pyEq_iff]
            simp [kind]) (by
          intro e' he'
          rw [e] at he'
          rcases List.mem_append.1 he' with he' | he'
          · exact hp e' he'
          · obtain rfl : e' = (.flt false .nan, n) := by simpa using he'
            exact hn) hp2'
        refine ⟨i1, i2, fun p hc => ?_⟩
        have : p (.flt false .nan) = p k := hc _ _ (by rw [Same_iff, hkn]; rfl)
        rw [i3 p hc, e, mass_append, mass_cons, mass_cons, mass_nil]
        simp only [this]
        omega
    | false =>
      rw [if_neg (by simp)]
      have hkn : kind k ≠ some (.inl .nan) := by
        rw [Bool.eq_false_iff, Ne, isNan_iff] at hk
        exact hk
      have hno : ∀ e ∈ d, pyEq e.1 k = false := fun e he => hdu e he (k, n) (by simp)
      have e : dictSet pyEq d k n = d ++ [(k, n)] := by
        unfold dictSet
        rw [if_neg]
        simpa using hno
      obtain ⟨i1, i2, i3⟩ := ih (d := dictSet pyEq d k n) hu.2 (by
        rw [e, List.map_append, List.pairwise_append]
        refine ⟨hd, by simp, ?_⟩
        intro a ha b hb
        obtain ⟨z, hz, rfl⟩ := List.mem_map.1 ha
        obtain rfl : b = k := by simpa using hb
        have := hno z hz
        rw [Bool.eq_false_iff, Ne, pyEq_iff] at this
        rw [Bool.eq_false_iff, Ne, Same_iff]
        intro hc
        exact this ⟨hc, hc ▸ hkn⟩) (by
        intro e' he' y hy
        rw [e] at he'
        rcases List.mem_append.1 he' with he' | he'
        · exact hdu e' he' y (by simp [hy])
        · obtain rfl : e' = (k, n) := by simpa using he'
          exact hu.1 y.1 (List.mem_map.2 ⟨y, hy, rfl⟩)) (by
        intro e' he'
        rw [e] at he'
        rcases List.mem_append.1 he' with he' | he'
        · exact hp e' he'
        · obtain rfl : e' = (k, n) := by simpa using he'
          exact hn) hp2'
      refine ⟨i1, i2, fun p hc => ?_⟩
      rw [i3 p hc, e, mass_append, mass_cons, mass_cons, mass_nil]
      omega

theorem tally_numeric (collapse : Bool) (vals : List Val) : Tally (numLoop [] (npUnique (uniqEq collapse) vals)) vals := by
  have h := npUnique_counted (same := uniqEq collapse) (by
    intro a b hab
    rw [uniqEq_iff] at hab ⊢
    exact ⟨hab.1.symm, hab.1 ▸ hab.2⟩) (by
    intro a b c hab hbc
    rw [uniqEq_iff] at hab hbc ⊢
    exact ⟨hab.1.trans hbc.1, hab.2⟩) vals
  obtain ⟨i1, i2, i3⟩ := numLoop_spec (u := npUnique (uniqEq collapse) vals) (d := []) (by
    refine h.keys.imp ?_
    intro a b hab
    rw [Bool.eq_false_iff, Ne, uniqEq_iff] at hab
    rw [Bool.eq_false_iff, Ne, pyEq_iff]
    exact fun hc => hab ⟨hc.1, .inr hc.2⟩) (by simp) (by simp) (by simp) h.pos
  refine tally_of_mass i1 i2 (fun p hc => ?_)
  rw [i3 p hc, mass_nil, h.mass p ?_, Nat.zero_add]
  intro a b hab
  exact hc a b ((Same_iff a b).2 ((uniqEq_iff collapse a b).1 hab).1)

/-- The elements are Python objects: the same object has the same value. -/
def Objects (arr : List Cel) : Prop := ∀ x ∈ arr, ∀ y ∈ arr, x.1 = y.1 → x.2 = y.2

/-- All missing numbers are the same object (such as `np.nan`). -/
def OneNan (arr : List Cel) : Prop := ∀ x ∈ arr, ∀ y ∈ arr, isNan x.2 = true → isNan y.2 = true → x.1 = y.1

theorem sameKey_iff {arr : List Cel} (h1 : Objects arr) (h2 : OneNan arr) {x y : Cel} (hx : x ∈ arr) (hy : y ∈ arr) :
    sameKey x y = true ↔ kind x.2 = kind y.2 := by
  unfold sameKey
  rw [Bool.or_eq_true, decide_eq_true_eq, pyEq_iff]
  constructor
  · rintro (h | h)
    · rw [h1 x hx y hy h]
    · exact h.1
  · intro h
    by_cases hn : kind x.2 = some (.inl .nan)
    · exact .inl (h2 x hx y hy ((isNan_iff _).2 hn) ((isNan_iff _).2 (h ▸ hn)))
    · exact .inr ⟨h, hn⟩

/-- The keys and the codes of the mapping. -/
theorem mapper_spec {arr : List Cel} (h1 : Objects arr) (h2 : OneNan arr) {r m : List Cel} (hr : ∀ x ∈ r, x ∈ arr)
    (hm : ∀ x ∈ m, x ∈ arr) (hk : m.Pairwise (fun a b => kind a.2 ≠ kind b.2)) :
    m <+: (mapper m r).1 ∧ (mapper m r).1.Pairwise (fun a b => kind a.2 ≠ kind b.2) ∧
      List.Forall₂ (fun e (i : Nat) => ∃ k, (mapper m r).1[i]? = some k ∧ kind k.2 = kind e.2) r (mapper m r).2 := by
  induction r generalizing m with
  | nil => exact ⟨List.prefix_refl _, hk, .nil⟩
  | cons e r ih =>
    have he := hr e (by simp)
    have hr' : ∀ x ∈ r, x ∈ arr := fun x hx => hr x (by simp [hx])
    unfold mapper
    cases hf : m.findIdx? (fun k => sameKey k e) with
    | some i =>
      obtain ⟨i1, i2, i3⟩ := ih (m := m) hr' hm hk
      refine ⟨i1, i2, .cons ?_ i3⟩
      obtain ⟨hlt, hs, -⟩ := List.findIdx?_eq_some_iff_getElem.1 hf
      refine ⟨m[i], ?_, (sameKey_iff h1 h2 (hm _ (List.getElem_mem hlt)) he).1 hs⟩
      obtain ⟨t, ht⟩ := i1
      rw [← ht, List.getElem?_append_left hlt, List.getElem?_eq_getElem hlt]
    | none =>
      have hno := List.findIdx?_eq_none_iff.1 hf
      obtain ⟨i1, i2, i3⟩ := ih (m := m ++ [e]) hr' (by
        intro x hx
        rcases List.mem_append.1 hx with hx | hx
        · exact hm x hx
        · obtain rfl : x = e := by simpa using hx
          exact he) (by
        rw [List.pairwise_append]
        refine ⟨hk, by simp, ?_⟩
        intro a ha b hb
        obtain rfl : b = e := by simpa using hb
        have := hno a ha
        rw [← Bool.not_eq_true, sameKey_iff h1 h2 (hm a ha) he] at this
        exact this)
      refine ⟨(List.prefix_append m [e]).trans i1, i2, .cons ?_ i3⟩
      obtain ⟨t, ht⟩ := i1
      refine ⟨e, ?_, rfl⟩
      rw [← ht, List.append_assoc, List.getElem?_append_right (Nat.le_refl _)]
      simp

theorem tally_objects {arr : List Cel} (h1 : Objects arr) (h2 : OneNan arr) :
    Tally (objLoop (mapper [] arr).1 (npUnique (fun a b => decide (a = b)) (mapper [] arr).2)) (arr.map Prod.snd) := by
  obtain ⟨-, i2, i3⟩ := mapper_spec h1 h2 (r := arr) (m := []) (fun x hx => hx) (by simp) .nil
  generalize (mapper [] arr).1 = m at *
  generalize (mapper [] arr).2 = codes at *
  have h := npUnique_counted (same := fun a b : Nat => decide (a = b)) (by simp) (by simp) codes
  generalize npUnique (fun a b : Nat => decide (a = b)) codes = u at *
  have hcode : ∀ c ∈ codes, c < m.length := by
    clear h
    induction i3 with
    | nil => simp
    | cons hx _ ih =>
      intro c hc
      rcases List.mem_cons.1 hc with rfl | hc
      · obtain ⟨k, hk, -⟩ := hx
        exact (List.getElem?_eq_some_iff.1 hk).1
      · exact ih (fun x hx y hy => h1 x (by simp [hx]) y (by simp [hy])) (fun x hx y hy => h2 x (by simp [hx]) y (by simp [hy])) c hc
  let val : Nat → Val := fun i => ((m[i]?).map Prod.snd).getD .none
  have hval : ∀ i (hi : i < m.length), val i = m[i].2 := fun i hi => by simp [val, List.getElem?_eq_getElem hi]
  have hloop : objLoop m u = u.map (fun p => (val p.1, p.2)) := by
    unfold objLoop
    rw [← List.filterMap_eq_map]
    refine List.filterMap_congr ?_
    intro p hp
    have hi := hcode _ (h.sub p hp)
    simp [hval _ hi, List.getElem?_eq_getElem hi]
  rw [hloop]
  refine tally_of_mass ?_ ?_ ?_
  · rw [List.map_map, List.pairwise_map]
    have hk := List.pairwise_map.1 h.keys
    have hk2 : u.Pairwise (fun a b => a.1 ≠ b.1) := hk.imp (by simp)
    refine List.Pairwise.imp_of_mem ?_ hk2
    intro a b ha hb hab
    have hia := hcode _ (h.sub a ha)
    have hib := hcode _ (h.sub b hb)
    simp only [Function.comp, hval _ hia, hval _ hib]
    rw [Bool.eq_false_iff, Ne, Same_iff]
    rw [List.pairwise_iff_getElem] at i2
    rcases Nat.lt_or_gt_of_ne hab with hlt | hlt
    · exact i2 _ _ hia hib hlt
    · exact fun hc => i2 _ _ hib hia hlt hc.symm
  · intro e he
    obtain ⟨x, hx, rfl⟩ := List.mem_map.1 he
    exact h.pos x hx
  · intro p hc
    have e1 : mass p (u.map (fun p => (val p.1, p.2))) = mass (fun i => p (val i)) u := by
      clear h hloop
      induction u with
      | nil => rfl
      | cons x u ih => rw [List.map_cons, mass_cons, mass_cons, ih]
    rw [e1, h.mass _ (by simp)]
    clear h hloop e1 hcode
    induction i3 with
    | nil => rfl
    | @cons e i arr codes hx _ ih =>
      obtain ⟨k, hk, hkk⟩ := hx
      have hv : p (val i) = p e.2 := by
        refine hc _ _ ?_
        rw [Same_iff]
        simp [val, hk, hkk]
      rw [List.map_cons, List.countP_cons, List.countP_cons, hv,
        ih (fun x hx y hy => h1 x (by simp [hx]) y (by simp [hy])) (fun x hx y hy => h2 x (by simp [hx]) y (by simp [hy]))]

/-- The elements at the chosen points and features. -/
def chosen (o : Obj Cel) (ps fs : List Nat) : List Cel := ps.flatMap (fun i => fs.filterMap (fun j => o.elem? i j))

/-- What `points` or `features` denote: all without the argument. -/
def Chosen (a : AxisSt) : Option AxKey → List Nat → Prop
  | none, idx => idx = List.range a.len
  | some k, idx => Plain k ∧ AxSelects a k idx

/-- Not two single identifiers. -/
def NotElement (points features : Option AxKey) : Prop :=
  ¬ ∃ i j, points = some (.single i) ∧ features = some (.single j)

/-- The array has a number type, or it has elements and all its missing numbers are one object. -/
def Countable (numeric : Bool) (arr : List Cel) : Prop := numeric = true ∨ (arr ≠ [] ∧ Objects arr ∧ OneNan arr)

theorem countArray_tally {numeric : Bool} {arr : List Cel} (collapse : Bool) (h : Countable numeric arr) :
    ∃ d, countArray numeric collapse arr = .ok d ∧ Tally d (arr.map Prod.snd) := by
  unfold countArray
  cases numeric with
  | true => exact ⟨_, rfl, tally_numeric collapse _⟩
  | false =>
    rcases h with h | ⟨h0, h1, h2⟩
    · cases h
    · have : arr.isEmpty = false := by simpa using h0
      rw [if_neg (by simp), if_neg (by simp [this])]
      exact ⟨_, rfl, tally_objects h1 h2⟩

theorem window_flatten {o r : Obj Cel} {ps fs : List Nat} (w : Obj.Window o r ps fs) : r.data.flatten = chosen o ps fs := by
  rw [w.data]
  unfold chosen pick
  clear w
  induction ps with
  | nil => rfl
  | cons i ps ih =>
    rw [List.flatMap_cons, ← ih]
    cases hr : o.data[i]? with
    | none =>
      have : fs.filterMap (fun j => o.elem? i j) = [] := by
        rw [List.filterMap_eq_nil_iff]
        intro j _
        simp [Obj.elem?, hr]
      rw [this, List.filterMap_cons_none hr, List.nil_append]
    | some row =>
      rw [List.filterMap_cons_some hr, List.map_cons, List.flatten_cons]
      congr 1
      refine List.filterMap_congr ?_
      intro j _
      simp [Obj.elem?, hr]

theorem wanted_selects {a : AxisSt} {k : Option AxKey} {idx : List Nat} (h : Chosen a k idx) :
    Plain (wanted k) ∧ AxSelects a (wanted k) idx := by
  cases k with
  | none => exact ⟨⟨by simp, by simp, by simp⟩, h⟩
  | some k => exact h

theorem getitem_wanted {o : Obj Cel} (h : o.WF) (hp0 : 0 < o.pts.len) (hf0 : 0 < o.fts.len) {points features : Option AxKey}
    {ps fs : List Nat} (hp : Chosen o.pts points ps) (hf : Chosen o.fts features fs) (hne : NotElement points features) :
    ∃ r, o.getitem (wanted points) (wanted features) = .ok (.obj r) ∧ Obj.Window o r ps fs := by
  obtain ⟨p1, p2⟩ := wanted_selects hp
  obtain ⟨f1, f2⟩ := wanted_selects hf
  refine ((Obj.C05_getitem_partial h hp0 hf0 p1 f1).1 ps fs p2 f2).2 ?_
  intro hs
  cases points with
  | none => cases hs
  | some x =>
    cases features with
    | none => rfl
    | some y =>
      cases y with
      | multi _ => rfl
      | single j =>
        cases x with
        | multi _ => cases hs
        | single i => exact absurd ⟨i, j, rfl, rfl⟩ hne

/-- **C87** `countUniqueElements` of List, Matrix and DataFrame: the dictionary counts exactly the elements at the
chosen points and features. -/
theorem C87_count {o : Obj Cel} (h : o.WF) (hp0 : 0 < o.pts.len) (hf0 : 0 < o.fts.len) {points features : Option AxKey}
    {ps fs : List Nat} (hp : Chosen o.pts points ps) (hf : Chosen o.fts features fs) (hne : NotElement points features)
    {numeric : Bool} (collapse : Bool) (hc : Countable numeric (chosen o ps fs)) :
    ∃ d, countUnique numeric collapse o points features = .ok d ∧ Tally d ((chosen o ps fs).map Prod.snd) := by
  obtain ⟨r, h1, h2⟩ := getitem_wanted h hp0 hf0 hp hf hne
  unfold countUnique
  cases hb : points.isNone && features.isNone with
  | false =>
    rw [if_neg (by simp), h1]
    have := window_flatten h2
    dsimp only
    rw [this]
    exact countArray_tally collapse hc
  | true =>
    rw [if_pos rfl]
    obtain ⟨rfl, rfl⟩ : points = none ∧ features = none := by simpa using hb
    obtain rfl : ps = _ := hp
    obtain rfl : fs = _ := hf
    rw [window_flatten (Obj.Window.refl h)]
    exact countArray_tally collapse hc

theorem length_chosen {o : Obj Cel} (h : o.WF) {ps fs : List Nat} (hp : ∀ i ∈ ps, i < o.pts.len) (hf : ∀ j ∈ fs, j < o.fts.len) :
    (chosen o ps fs).length = ps.length * fs.length := by
  unfold chosen
  induction ps with
  | nil => simp
  | cons i ps ih =>
    rw [List.flatMap_cons, List.length_append, ih (fun k hk => hp k (by simp [hk])), List.length_cons, Nat.succ_mul]
    have : (fs.filterMap (fun j => o.elem? i j)).length = fs.length := by
      clear ih
      induction fs with
      | nil => rfl
      | cons j fs ihf =>
        obtain ⟨row, r1, r2, r3⟩ := h.vector_point (hp i (by simp))
        have hj := hf j (by simp)
        have hv : o.elem? i j = some (row[j]'(by omega)) := by
          unfold Obj.elem?
          rw [r1]
          exact List.getElem?_eq_getElem (by omega)
        rw [List.filterMap_cons_some hv, List.length_cons, List.length_cons, ihf (fun k hk => hf k (by simp [hk]))]
    omega

theorem Chosen.valid {a : AxisSt} (h : a.Ok) (h0 : 0 < a.len) {k : Option AxKey} {idx : List Nat} (hc : Chosen a k idx) :
    ∀ i ∈ idx, i < a.len :=
  ((wanted_selects hc).2.valid h h0).2

/-- **C87** the counts add up to the number of chosen elements. -/
theorem C87_count_total {o : Obj Cel} (h : o.WF) (hp0 : 0 < o.pts.len) (hf0 : 0 < o.fts.len) {points features : Option AxKey}
    {ps fs : List Nat} (hp : Chosen o.pts points ps) (hf : Chosen o.fts features fs) (hne : NotElement points features)
    {numeric : Bool} (collapse : Bool) (hc : Countable numeric (chosen o ps fs)) :
    ∃ d, countUnique numeric collapse o points features = .ok d ∧ (d.map Prod.snd).sum = ps.length * fs.length := by
  obtain ⟨d, h1, h2⟩ := C87_count h hp0 hf0 hp hf hne collapse hc
  refine ⟨d, h1, ?_⟩
  rw [mass_total h2, List.length_map, length_chosen h (hp.valid h.pts hp0) (hf.valid h.fts hf0)]

/-- **C87** `countUniqueElements` of Sparse, whatever the order of the stored entries. -/
theorem C87_count_sparse {o : Obj Cel} (h : o.WF) (hp0 : 0 < o.pts.len) (hf0 : 0 < o.fts.len) {points features : Option AxKey}
    {ps fs : List Nat} (hp : Chosen o.pts points ps) (hf : Chosen o.fts features fs) (hne : NotElement points features)
    {store : Obj Cel → List Cel} (hst : ∀ r, (store r).Perm (r.data.flatten.filter (fun e => !zero e.2)))
    {numeric : Bool} (collapse : Bool) (hc : Countable numeric ((chosen o ps fs).filter (fun e => !zero e.2))) :
    ∃ d, sparseCountUnique numeric collapse store o points features = .ok d ∧ Tally d ((chosen o ps fs).map Prod.snd) := by
  obtain ⟨r, h1, h2⟩ := getitem_wanted h hp0 hf0 hp hf hne
  have hw := window_flatten h2
  have hs := hst r
  rw [hw] at hs
  have hc' : Countable numeric (store r) := by
    rcases hc with hc | ⟨c0, c1, c2⟩
    · exact .inl hc
    · refine .inr ⟨?_, ?_, ?_⟩
      · intro he
        rw [he] at hs
        exact c0 hs.nil_eq.symm
      · intro x hx y hy
        exact c1 x (hs.mem_iff.1 hx) y (hs.mem_iff.1 hy)
      · intro x hx y hy
        exact c2 x (hs.mem_iff.1 hx) y (hs.mem_iff.1 hy)
  obtain ⟨d, d1, d2⟩ := countArray_tally collapse hc'
  refine ⟨setZeros d (r.pts.len * r.fts.len) (store r).length, ?_, ?_⟩
  · simp only [sparseCountUnique, h1, d1, Except.map]
  have hlen : r.pts.len * r.fts.len = (chosen o ps fs).length := by
    rw [length_chosen h (hp.valid h.pts hp0) (hf.valid h.fts hf0), h2.pLen, h2.fLen]
  have hz0 : kind (.int false 0) = some (.inl (.fin 0)) := by simp [kind]
  have hzero : ∀ v, zero v = true ↔ kind v = some (.inl (.fin 0)) := by
    intro v
    unfold zero
    rw [pyEq_iff, hz0]
    constructor
    · exact fun h => h.1
    · intro h; exact ⟨h, by rw [h]; simp⟩
  -- the number of zeros
  have hcnt : (chosen o ps fs).countP (fun e => zero e.2) = (chosen o ps fs).length - (store r).length := by
    have := List.length_eq_countP_add_countP (fun e : Cel => zero e.2) (l := chosen o ps fs)
    rw [hs.length_eq, ← List.countP_eq_length_filter]
    simp only [Bool.not_eq_true, Bool.decide_eq_false] at this
    omega
  have hnot : ∀ e ∈ d, ¬ kind e.1 = some (.inl (.fin 0)) := by
    intro e he hk
    have := d2.counts e.1 e.2 he
    rw [this.2, List.countP_pos_iff] at this
    obtain ⟨v, hv, hsame⟩ := this.1
    obtain ⟨c, hc, rfl⟩ := List.mem_map.1 hv
    have := (List.mem_filter.1 (hs.mem_iff.1 hc)).2
    rw [Same_iff] at hsame
    have hz : zero c.2 = true := (hzero _).2 (hsame ▸ hk)
    rw [hz] at this
    cases this
  have hcount : ∀ k, ¬ kind k = some (.inl (.fin 0)) →
      ((store r).map Prod.snd).countP (Same k) = ((chosen o ps fs).map Prod.snd).countP (Same k) := by
    intro k hk
    rw [List.countP_map, List.countP_map, hs.countP_eq, List.countP_filter]
    apply List.countP_congr
    intro e _
    simp only [Function.comp, Bool.and_eq_true, Bool.not_eq_true']
    constructor
    · exact fun h => h.1
    · intro hs
      refine ⟨hs, ?_⟩
      rw [Bool.eq_false_iff, Ne, hzero]
      rw [Same_iff] at hs
      rw [← hs]
      exact hk
  have hbase : ∀ e ∈ d, 0 < e.2 ∧ e.2 = ((chosen o ps fs).map Prod.snd).countP (Same e.1) := by
    intro e he
    have := d2.counts e.1 e.2 he
    rw [hcount _ (hnot e he)] at this
    exact this
  have hcov : ∀ v ∈ (chosen o ps fs).map Prod.snd, zero v = false → ∃ k n, (k, n) ∈ d ∧ Same k v = true := by
    intro v hv hz
    obtain ⟨c, hc, rfl⟩ := List.mem_map.1 hv
    exact d2.covers _ (List.mem_map.2 ⟨c, hs.mem_iff.2 (List.mem_filter.2 ⟨hc, by simp [hz]⟩), rfl⟩)
  unfold setZeros
  by_cases hlt : (store r).length < r.pts.len * r.fts.len
  · rw [if_pos hlt]
    have hset : dictSet pyEq d (.int false 0) (r.pts.len * r.fts.len - (store r).length) =
        d ++ [(.int false 0, r.pts.len * r.fts.len - (store r).length)] := by
      unfold dictSet
      rw [if_neg]
      simp only [List.any_eq_true, not_exists, not_and]
      intro e he hk
      rw [pyEq_iff, hz0] at hk
      exact hnot e he hk.1
    rw [hset]
    refine ⟨?_, ?_, ?_⟩
    · intro k n hk
      rcases List.mem_append.1 hk with hk | hk
      · exact hbase _ hk
      · obtain ⟨rfl, rfl⟩ : k = .int false 0 ∧ n = _ := by simpa using hk
        refine ⟨by omega, ?_⟩
        rw [hlen, ← hcnt, List.countP_map]
        apply List.countP_congr
        intro e _
        simp only [Function.comp]
        rw [hzero, Same_iff, hz0]
        exact eq_comm
    · intro v hv
      cases hz : zero v with
      | true => exact ⟨.int false 0, r.pts.len * r.fts.len - (store r).length, by simp, by rw [Same_iff, hz0, (hzero v).1 hz]⟩
      | false =>
        obtain ⟨k, n, hk, hs⟩ := hcov v hv hz
        exact ⟨k, n, by simp [hk], hs⟩
    · rw [List.pairwise_append]
      refine ⟨d2.keys, by simp, ?_⟩
      intro a ha b hb
      obtain rfl : b = _ := by simpa using hb
      rw [Bool.eq_false_iff, Ne, Same_iff, hz0]
      exact hnot a ha
  · rw [if_neg hlt]
    refine ⟨fun k n hk => hbase _ hk, ?_, d2.keys⟩
    intro v hv
    refine hcov v hv ?_
    have h0 : (chosen o ps fs).countP (fun e => zero e.2) = 0 := by omega
    rw [List.countP_eq_zero] at h0
    obtain ⟨c, hc, rfl⟩ := List.mem_map.1 hv
    simpa using h0 c hc

/-! ### Violations -/

/-- **C87 violated (one element).**  A single point and a single feature are refused, although one element can be
counted. -/
theorem C87_count_element_violated (numeric collapse : Bool) {o : Obj Cel} (h : o.WF) {i j : Ident} {a b : Nat} {e : Cel}
    (hi : i.isFlt = false) (hj : j.isFlt = false) (ha : Denotes o.pts i a) (hb : Denotes o.fts j b) (he : o.elem? a b = some e) :
    countUnique numeric collapse o (some (.single i)) (some (.single j)) = .error .AttributeError := by
  obtain ⟨hp, hf⟩ := elem?_lt h he
  obtain ⟨a', b', v, -, -, -, h4⟩ := ((Obj.C05_getitem_partial h (by omega) (by omega) (x := .single i) (y := .single j) hi hj).1 [a] [b]
    ⟨a, ha, rfl⟩ ⟨b, hb, rfl⟩).1 rfl rfl
  simp only [countUnique, Option.isNone, Bool.false_and, wanted, h4]
  rfl

/-- **C87 violated (missing values).**  In an object array every missing number that is another Python object (as when
a float column of a DataFrame becomes part of an object array) has a key of its own. -/
theorem C87_count_missing_violated (collapse : Bool) :
    let o : Obj Cel := ⟨[[(1, .flt false .nan), (2, .str "a")], [(3, .flt false .nan), (2, .str "a")]], ⟨2, none⟩, ⟨2, none⟩⟩
    countUnique false collapse o none none =
      .ok [(.flt false .nan, 1), (.str "a", 2), (.flt false .nan, 1)] ∧
    ¬ Tally [(.flt false .nan, 1), (.str "a", 2), (.flt false .nan, 1)] (o.data.flatten.map Prod.snd) := by
  intro o
  refine ⟨by cases collapse <;> decide +kernel, ?_⟩
  intro h
  have := (h.counts (.flt false .nan) 1 (by simp)).2
  revert this
  decide +kernel

/-- **C87 violated (Sparse, only zeros).**  A Sparse object of object dtype that stores nothing is refused; the dense
object counts its zeros. -/
theorem C87_count_sparse_zeros_violated (collapse : Bool) (store : Obj Cel → List Cel)
    (hst : ∀ r, (store r).Perm (r.data.flatten.filter (fun e => !zero e.2))) :
    let o : Obj Cel := ⟨[[(1, .int false 0), (1, .int false 0)]], ⟨1, none⟩, ⟨2, none⟩⟩
    sparseCountUnique false collapse store o none none = .error .ValueError ∧
    countUnique false collapse o none none = .ok [(.int false 0, 2)] := by
  intro o
  have h0 : store o = [] := by
    have := hst o
    have e : o.data.flatten.filter (fun e => !zero e.2) = [] := by decide +kernel
    rw [e] at this
    exact this.eq_nil
  refine ⟨?_, by cases collapse <;> decide +kernel⟩
  have hg : o.getitem (wanted none) (wanted none) = .ok (.obj o) := rfl
  simp only [sparseCountUnique, hg, h0]
  rfl

/-! ### Examples -/

/-- `C87_iterate`: the positive elements, column by column. -/
example :
    let o : Obj Int := ⟨[[1, -2, 3], [-4, 5, 6]], ⟨2, none⟩, ⟨3, none⟩⟩
    o.WF ∧ (OrderArg.str "feature").Names .feature ∧
      (OnlyArg.call (fun v : Int => .ok (decide (0 < v)))).Answers o.elem? (fun v => decide (0 < v)) ∧
      ∃ it, iterate o (.str "feature") (.call (fun v => .ok (decide (0 < v)))) = .ok it ∧
        it.nth 0 = .ok (some 1) ∧ it.nth 1 = .ok (some 5) ∧ it.nth 2 = .ok (some 3) ∧ it.nth 3 = .ok (some 6) ∧
        it.nth 4 = .ok none :=
  ⟨⟨rfl, by simp, none_ok _, none_ok _⟩, rfl, fun _ _ _ _ => rfl, _, rfl, rfl, rfl, rfl, rfl, rfl⟩

/-- `C87_iterate_sparse`: entries in no order. -/
example :
    let c : Sp.Coo Int := ⟨2, 3, [⟨1, 2, 6⟩, ⟨0, 0, 1⟩, ⟨0, 1, -2⟩], none, none⟩
    c.WF ∧ (OrderArg.str "point").Names .point ∧
      (OnlyArg.call (fun v : Int => .ok (decide (0 < v)))).Answers (sparseTable c) (fun v => decide (0 < v)) :=
  ⟨⟨⟨by decide, by decide, by decide, by decide⟩, by simp, by simp⟩, rfl, fun _ _ _ _ => rfl⟩

/-- `C87_count`: points 0 and 2, all features. -/
example :
    let o : Obj Cel := ⟨[[(1, .int false 1), (2, .str "a")], [(3, .flt false .nan), (4, .int false 0)],
      [(3, .flt false .nan), (5, .flt false (.fin 1))]], ⟨3, none⟩, ⟨2, none⟩⟩
    o.WF ∧ Chosen o.pts (some (.multi (.list [.id (.int 0), .id (.int (-1))]))) [0, 2] ∧ Chosen o.fts none [0, 1] ∧
      Countable false (chosen o [0, 2] [0, 1]) ∧
      countUnique false false o (some (.multi (.list [.id (.int 0), .id (.int (-1))]))) none =
        .ok [(.int false 1, 2), (.str "a", 1), (.flt false .nan, 1)] := by
  refine ⟨⟨rfl, by simp, none_ok _, none_ok _⟩, ⟨⟨by decide, .inr (by decide)⟩, ?_⟩, rfl, .inr ⟨by decide, by unfold Objects; decide, by unfold OneNan; decide⟩, by decide +kernel⟩
  simp only [AxSelects, Nimble.Selects]
  rw [if_neg (by simp [KeyEl.isBool])]
  refine ⟨by simp [KeyEl.isBool], by decide, .cons ?_ (.cons ?_ .nil)⟩ <;> simp [Denotes, KeyEl.ident]

end Nimble.Iter
