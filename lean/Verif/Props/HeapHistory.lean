import Verif.Props.Heap

/-!
# C17: histories
-/

namespace Nimble
namespace Mem
variable {V : Type}
namespace Heap

/-- The object an operation is applied to, if it modifies one. -/
def _root_.Nimble.Mem.HOp.target : HOp V → Option Nat
  | .new _ _ | .copy _ | .binop _ _ _ | .scalar _ _ => none
  | .ibinop i _ _ | .iscalar i _ | .setitem i _ _ _ | .transform i _ | .permute i _ _ | .extract i _ _
  | .delete i _ _ | .retain i _ _ | .insert i _ _ _ | .transpose i => some i

/-- The operation changes the number of points or features in place. -/
def _root_.Nimble.Mem.HOp.resizes : HOp V → Option Nat
  | .extract i _ _ | .delete i _ _ | .insert i _ _ _ => some i
  | _ => none

/-- The operation is an arithmetic operator that returns a new object. -/
def _root_.Nimble.Mem.HOp.arithmetic : HOp V → Bool
  | .binop _ _ _ | .scalar _ _ => true
  | _ => false

/-- The object whose size the operation changes in place does not share its `_dims` list. -/
def Safe (h : Heap V) (op : HOp V) : Prop :=
  ∀ i o, op.resizes = some i → h.objs[i]? = some o → h.OwnDims i o

/-- Both the program and the specification refuse. -/
def BothRefuse (h : Heap V) (op : HOp V) : Prop :=
  ∃ e, h.step op = .error e ∧ valueStep h.abs op = .error e

/-- Both accept: the elements of all objects agree with the specification, and if the operation is
safe, the shapes too. -/
def BothAccept (h : Heap V) (op : HOp V) : Prop :=
  ∃ h' w, h.step op = .ok h' ∧ valueStep h.abs op = .ok w ∧ HInv h' ∧
    h'.abs.map Tab.data = w.map Tab.data ∧ (h.Safe op → h'.abs = w)

theorem accept {h h' : Heap V} {op : HOp V} {w : List (Tab V)} (h1 : h.step op = .ok h')
    (h2 : valueStep h.abs op = .ok w) (h3 : HInv h') (h4 : h'.abs = w) : h.BothAccept op :=
  ⟨h', w, h1, h2, h3, by rw [h4], fun _ => h4⟩

theorem get_cases (h : Heap V) (i : Nat) :
    (∃ o, h.objs[i]? = some o ∧ h.get i = .ok o ∧ getTab h.abs i = .ok (h.tab o)) ∨
    (h.get i = .error .IndexError ∧ getTab h.abs i = .error .IndexError) := by
  unfold get getTab
  cases hio : h.objs[i]? with
  | some o =>
    rw [get_abs hio]
    exact Or.inl ⟨o, rfl, rfl, rfl⟩
  | none =>
    have : h.abs[i]? = none := by unfold abs; rw [List.getElem?_map, hio]; rfl
    rw [this]
    exact Or.inr ⟨rfl, rfl⟩

/-- Without a good object reference both refuse. -/
theorem refuse1 {A B : Type} {i : Nat} {h : Heap V} (h1 : h.get i = .error .IndexError)
    (h2 : getTab h.abs i = .error .IndexError) (f : HObj → Res A) (g : Tab V → Res B) :
    ∃ e, (h.get i >>= f) = .error e ∧ (getTab h.abs i >>= g) = .error e :=
  ⟨_, by rw [h1]; rfl, by rw [h2]; rfl⟩

theorem set_eq_reference {h : Heap V} {i : Nat} {o : HObj} (hio : h.objs[i]? = some o) (hi : HInv h)
    (vs : List (List V)) (d : Nat × Nat) :
    HInv (h.reference i vs d) ∧ (h.reference i vs d).abs = h.abs.set i ⟨d, vs⟩ := by
  obtain ⟨a, b⟩ := reference_spec hi i vs d
  exact ⟨a, b.trans (modify_set (get_abs hio) _)⟩

theorem ok_bind {A B : Type} (a : A) (f : A → Res B) : ((.ok a : Res A) >>= f) = f a := rfl

/-- Every operation does what the specification says, except that shapes are right only if the
operation is safe. -/
theorem step_refines {h : Heap V} (hi : HInv h) (op : HOp V) : h.BothAccept op ∨ h.BothRefuse op := by
  cases op with
  | new ncol data =>
    by_cases hd : data.all (fun r => decide (r.length = ncol)) = true
    · obtain ⟨a, b⟩ := push_spec hi data (data.length, ncol)
      exact Or.inl (accept (if_pos hd) (if_pos hd) a b)
    · exact Or.inr ⟨_, if_neg hd, if_neg hd⟩
  | copy i =>
    rcases get_cases h i with ⟨o, hio, g1, g2⟩ | ⟨g1, g2⟩
    · obtain ⟨a, b⟩ := push_spec hi (h.contents o) (h.dims o.dims)
      refine Or.inl (accept ?_ ?_ a b)
      · simp only [step]; rw [g1]; rfl
      · simp only [valueStep]; rw [g2]; rfl
    · exact Or.inr (refuse1 g1 g2 _ _)
  | binop i j f =>
    rcases get_cases h i with ⟨o, hio, g1, g2⟩ | ⟨g1, g2⟩
    · rcases get_cases h j with ⟨p, hjp, g3, g4⟩ | ⟨g3, g4⟩
      · by_cases hd : h.dims o.dims ≠ h.dims p.dims
        · refine Or.inr ⟨.InvalidArgumentValue, ?_, ?_⟩
          · simp only [step]; rw [g1, g3]; simp only [ok_bind]; exact if_pos hd
          · simp only [valueStep]; rw [g2, g4]; simp only [ok_bind]; exact if_pos hd
        · obtain ⟨a, b⟩ := pushAt_spec hi (List.zipWith (List.zipWith f) (h.contents o) (h.contents p))
            (hi.ok i o hio).2.1
          refine Or.inl (accept ?_ ?_ a b)
          · simp only [step]; rw [g1, g3]; simp only [ok_bind]; exact if_neg hd
          · simp only [valueStep]; rw [g2, g4]; simp only [ok_bind]; exact if_neg hd
      · refine Or.inr ?_
        unfold BothRefuse; simp only [step, valueStep]
        rw [g1, g2]
        simp only [ok_bind]
        exact refuse1 g3 g4 _ _
    · exact Or.inr (refuse1 g1 g2 _ _)
  | ibinop i j f =>
    rcases get_cases h i with ⟨o, hio, g1, g2⟩ | ⟨g1, g2⟩
    · rcases get_cases h j with ⟨p, hjp, g3, g4⟩ | ⟨g3, g4⟩
      · by_cases hd : h.dims o.dims ≠ h.dims p.dims
        · refine Or.inr ⟨.InvalidArgumentValue, ?_, ?_⟩
          · simp only [step]; rw [g1, g3]; simp only [ok_bind]; exact if_pos hd
          · simp only [valueStep]; rw [g2, g4]; simp only [ok_bind]; exact if_pos hd
        · obtain ⟨a, b⟩ := set_eq_reference hio hi
            (List.zipWith (List.zipWith f) (h.contents o) (h.contents p)) (h.dims o.dims)
          refine Or.inl (accept ?_ ?_ a b)
          · simp only [step]; rw [g1, g3]; simp only [ok_bind]; exact if_neg hd
          · simp only [valueStep]; rw [g2, g4]; simp only [ok_bind]; exact if_neg hd
      · refine Or.inr ?_
        unfold BothRefuse; simp only [step, valueStep]
        rw [g1, g2]
        simp only [ok_bind]
        exact refuse1 g3 g4 _ _
    · exact Or.inr (refuse1 g1 g2 _ _)
  | scalar i f =>
    rcases get_cases h i with ⟨o, hio, g1, g2⟩ | ⟨g1, g2⟩
    · obtain ⟨a, b⟩ := pushAt_spec hi ((h.contents o).map (List.map f)) (hi.ok i o hio).2.1
      refine Or.inl (accept ?_ ?_ a b)
      · simp only [step]; rw [g1]; rfl
      · simp only [valueStep]; rw [g2]; rfl
    · exact Or.inr (refuse1 g1 g2 _ _)
  | iscalar i f =>
    rcases get_cases h i with ⟨o, hio, g1, g2⟩ | ⟨g1, g2⟩
    · obtain ⟨a, b⟩ := set_eq_reference hio hi ((h.contents o).map (List.map f)) (h.dims o.dims)
      refine Or.inl (accept ?_ ?_ a b)
      · simp only [step]; rw [g1]; rfl
      · simp only [valueStep]; rw [g2]; rfl
    · exact Or.inr (refuse1 g1 g2 _ _)
  | setitem i x y v =>
    rcases get_cases h i with ⟨o, hio, g1, g2⟩ | ⟨g1, g2⟩
    · by_cases hd : x < (h.dims o.dims).1 ∧ y < (h.dims o.dims).2
      · obtain ⟨a, b⟩ := setitemIn_spec hi hio x y v
        refine Or.inl (accept ?_ ?_ a b)
        · simp only [step]; rw [g1]; simp only [ok_bind]; exact if_pos hd
        · simp only [valueStep]; rw [g2]; simp only [ok_bind]; exact if_pos hd
      · refine Or.inr ⟨.IndexError, ?_, ?_⟩
        · simp only [step]; rw [g1]; simp only [ok_bind]; exact if_neg hd
        · simp only [valueStep]; rw [g2]; simp only [ok_bind]; exact if_neg hd
    · exact Or.inr (refuse1 g1 g2 _ _)
  | transform i f =>
    rcases get_cases h i with ⟨o, hio, g1, g2⟩ | ⟨g1, g2⟩
    · obtain ⟨a, b⟩ := mapRows_spec hi hio (List.map f) (h' := h.transformIn o f) rfl
      refine Or.inl (accept ?_ ?_ a b)
      · simp only [step]; rw [g1]; rfl
      · simp only [valueStep]; rw [g2]; rfl
    · exact Or.inr (refuse1 g1 g2 _ _)
  | permute i ax order =>
    rcases get_cases h i with ⟨o, hio, g1, g2⟩ | ⟨g1, g2⟩
    · by_cases hd : order.isPerm (List.range (sizeOf (h.dims o.dims) ax)) = true
      · have hn : order.Nodup := (List.isPerm_iff.1 hd).nodup_iff.2 List.nodup_range
        obtain ⟨a, b⟩ := permuteIn_spec hi hio ax hn
        refine Or.inl (accept ?_ ?_ a b)
        · simp only [step]; rw [g1]; simp only [ok_bind]; exact if_pos hd
        · simp only [valueStep]; rw [g2]; simp only [ok_bind]; exact if_pos hd
      · refine Or.inr ⟨.IndexError, ?_, ?_⟩
        · simp only [step]; rw [g1]; simp only [ok_bind]; exact if_neg hd
        · simp only [valueStep]; rw [g2]; simp only [ok_bind]; exact if_neg hd
    · exact Or.inr (refuse1 g1 g2 _ _)
  | extract i ax tgt =>
    rcases get_cases h i with ⟨o, hio, g1, g2⟩ | ⟨g1, g2⟩
    · by_cases hd : goodTargets (sizeOf (h.dims o.dims) ax) tgt = true
      · obtain ⟨k1, k2, k3, k4⟩ := keepRest_spec hi hio ax tgt
        obtain ⟨a, b, c⟩ := outerThenDims hio
          (setSize (h.dims o.dims) ax (sizeOf (h.dims o.dims) ax - tgt.length)) k1 k2 k3 k4
        obtain ⟨d, e⟩ := push_spec a (Obj.selData ax (h.contents o) tgt) (setSize (h.dims o.dims) ax tgt.length)
        refine Or.inl ⟨(h.takeOut i o ax tgt).push (Obj.selData ax (h.contents o) tgt)
          (setSize (h.dims o.dims) ax tgt.length), h.abs.set i
            ⟨setSize (h.dims o.dims) ax (sizeOf (h.dims o.dims) ax - tgt.length),
             Obj.restData ax (sizeOf (h.dims o.dims) ax) (h.contents o) tgt⟩ ++
            [⟨setSize (h.dims o.dims) ax tgt.length, Obj.selData ax (h.contents o) tgt⟩], ?_, ?_, d, ?_, ?_⟩
        · simp only [step]; rw [g1]; simp only [ok_bind]; exact if_pos hd
        · simp only [valueStep]; rw [g2]; simp only [ok_bind]; exact if_pos hd
        · unfold takeOut
          rw [e, List.map_append, List.map_append, b]
        · intro hs
          unfold takeOut
          rw [e, c (hs i o rfl hio)]
      · refine Or.inr ⟨.IndexError, ?_, ?_⟩
        · simp only [step]; rw [g1]; simp only [ok_bind]; exact if_neg hd
        · simp only [valueStep]; rw [g2]; simp only [ok_bind]; exact if_neg hd
    · exact Or.inr (refuse1 g1 g2 _ _)
  | delete i ax tgt =>
    rcases get_cases h i with ⟨o, hio, g1, g2⟩ | ⟨g1, g2⟩
    · by_cases hd : goodTargets (sizeOf (h.dims o.dims) ax) tgt = true
      · obtain ⟨k1, k2, k3, k4⟩ := keepRest_spec hi hio ax tgt
        obtain ⟨a, b, c⟩ := outerThenDims hio
          (setSize (h.dims o.dims) ax (sizeOf (h.dims o.dims) ax - tgt.length)) k1 k2 k3 k4
        refine Or.inl ⟨h.takeOut i o ax tgt, _, ?_, ?_, a, b, fun hs => c (hs i o rfl hio)⟩
        · simp only [step]; rw [g1]; simp only [ok_bind]; exact if_pos hd
        · simp only [valueStep]; rw [g2]; simp only [ok_bind]; exact if_pos hd
      · refine Or.inr ⟨.IndexError, ?_, ?_⟩
        · simp only [step]; rw [g1]; simp only [ok_bind]; exact if_neg hd
        · simp only [valueStep]; rw [g2]; simp only [ok_bind]; exact if_neg hd
    · exact Or.inr (refuse1 g1 g2 _ _)
  | retain i ax tgt =>
    rcases get_cases h i with ⟨o, hio, g1, g2⟩ | ⟨g1, g2⟩
    · by_cases hd : goodTargets (sizeOf (h.dims o.dims) ax) tgt = true
      · obtain ⟨a, b⟩ := set_eq_reference hio hi (Obj.selData ax (h.contents o) tgt)
          (setSize (h.dims o.dims) ax tgt.length)
        refine Or.inl (accept ?_ ?_ a b)
        · simp only [step]; rw [g1]; simp only [ok_bind]; exact if_pos hd
        · simp only [valueStep]; rw [g2]; simp only [ok_bind]; exact if_pos hd
      · refine Or.inr ⟨.IndexError, ?_, ?_⟩
        · simp only [step]; rw [g1]; simp only [ok_bind]; exact if_neg hd
        · simp only [valueStep]; rw [g2]; simp only [ok_bind]; exact if_neg hd
    · exact Or.inr (refuse1 g1 g2 _ _)
  | insert i ax before j =>
    rcases get_cases h i with ⟨o, hio, g1, g2⟩ | ⟨g1, g2⟩
    · rcases get_cases h j with ⟨p, hjp, g3, g4⟩ | ⟨g3, g4⟩
      · by_cases hd : before ≤ sizeOf (h.dims o.dims) ax ∧
            sizeOf (h.dims o.dims) ax.off = sizeOf (h.dims p.dims) ax.off
        · obtain ⟨a, b, c⟩ := insertInto_spec hi (p := p) hio ax before
          refine Or.inl ⟨h.insertInto i o ax before p, _, ?_, ?_, a, b, fun hs => c (hs i o rfl hio)⟩
          · simp only [step]; rw [g1, g3]; simp only [ok_bind]; exact if_pos hd
          · simp only [valueStep]; rw [g2, g4]; simp only [ok_bind]; exact if_pos hd
        · refine Or.inr ⟨.InvalidArgumentValue, ?_, ?_⟩
          · simp only [step]; rw [g1, g3]; simp only [ok_bind]; exact if_neg hd
          · simp only [valueStep]; rw [g2, g4]; simp only [ok_bind]; exact if_neg hd
      · refine Or.inr ?_
        unfold BothRefuse; simp only [step, valueStep]
        rw [g1, g2]
        simp only [ok_bind]
        exact refuse1 g3 g4 _ _
    · exact Or.inr (refuse1 g1 g2 _ _)
  | transpose i =>
    rcases get_cases h i with ⟨o, hio, g1, g2⟩ | ⟨g1, g2⟩
    · obtain ⟨a, b⟩ := set_eq_reference hio hi (Obj.transposeData (h.dims o.dims).2 (h.contents o))
        ((h.dims o.dims).2, (h.dims o.dims).1)
      refine Or.inl (accept ?_ ?_ a b)
      · simp only [step]; rw [g1]; rfl
      · simp only [valueStep]; rw [g2]; rfl
    · exact Or.inr (refuse1 g1 g2 _ _)

/-! ## Theorems -/

/-- The specification changes only the target. -/
theorem value_frame {w w' : List (Tab V)} {op : HOp V} (hs : valueStep w op = .ok w') {k : Nat}
    (hk : k < w.length) (ht : op.target ≠ some k) : w'[k]? = w[k]? := by
  have hset : ∀ (i : Nat) (t : Tab V), some i ≠ some k → (w.set i t)[k]? = w[k]? := by
    intro i t hik
    exact List.getElem?_set_ne (fun e => hik (by rw [e]))
  have happ : ∀ t : Tab V, (w ++ [t])[k]? = w[k]? := fun t => List.getElem?_append_left hk
  have hboth : ∀ (i : Nat) (t u : Tab V), some i ≠ some k → (w.set i t ++ [u])[k]? = w[k]? := by
    intro i t u hik
    rw [List.getElem?_append_left (by rw [List.length_set]; exact hk)]
    exact hset i t hik
  cases op <;> simp only [valueStep, bind, Except.bind, pure, Except.pure] at hs <;>
    (repeat' split at hs) <;> (try cases hs) <;>
    first
      | exact happ _
      | exact hboth _ _ _ ht
      | exact hset _ _ ht

/-- Every heap reached by a history satisfies the invariant. -/
theorem run_inv {h : Heap V} (hi : HInv h) (ops : List (HOp V)) : HInv (h.run ops) := by
  induction ops generalizing h with
  | nil => exact hi
  | cons op ops ih =>
    unfold run
    rcases step_refines hi op with ⟨h', w, h1, _, h3, _⟩ | ⟨e, h1, _⟩
    · rw [h1]; exact ih h3
    · rw [h1]; exact ih hi

theorem empty_inv : HInv (Heap.empty : Heap V) :=
  ⟨fun i j o p hio => by simp [Heap.empty] at hio, fun i o hio => by simp [Heap.empty] at hio⟩

/-- Whatever has happened before, an operation changes the elements of no object but the one it is
applied to; in particular, modifying the result of an arithmetic operation never changes the elements
of its operands, and conversely. -/
theorem C17_elements {ops : List (HOp V)} {op : HOp V} {h' : Heap V}
    (hs : (Heap.empty.run ops).step op = .ok h') {k : Nat} (hk : k < (Heap.empty.run ops).abs.length)
    (ht : op.target ≠ some k) :
    (h'.abs[k]?).map Tab.data = ((Heap.empty.run ops).abs[k]?).map Tab.data := by
  rcases step_refines (run_inv empty_inv ops) op with ⟨h1, w, e1, e2, _, e4, _⟩ | ⟨e, e1, _⟩
  · rw [hs] at e1
    cases e1
    have := value_frame e2 hk ht
    rw [← this, ← List.getElem?_map, ← List.getElem?_map, e4]
  · rw [hs] at e1
    cases e1

/-- Every size change in the history is applied to an object whose `_dims` list is not shared. -/
def SafeRun (h : Heap V) : List (HOp V) → Prop
  | [] => True
  | op :: ops => h.Safe op ∧ (match h.step op with
    | .ok h' => SafeRun h' ops
    | .error _ => SafeRun h ops)

theorem run_refines {h : Heap V} (hi : HInv h) {ops : List (HOp V)} (hs : h.SafeRun ops) :
    (h.run ops).abs = valueRun h.abs ops := by
  induction ops generalizing h with
  | nil => rfl
  | cons op ops ih =>
    unfold run valueRun
    unfold SafeRun at hs
    rcases step_refines hi op with ⟨h', w, h1, h2, h3, _, h5⟩ | ⟨e, h1, h2⟩
    · rw [h1] at hs
      rw [h1, h2, ← h5 hs.1]
      exact ih h3 hs.2
    · rw [h1] at hs
      rw [h1, h2]
      exact ih hi hs.2

/-- As long as no operation changes the size of an object whose recorded size is shared with another,
all objects behave as independent values, in shape and elements. -/
theorem C17_independent_partial {ops : List (HOp V)} (hs : (Heap.empty : Heap V).SafeRun ops) :
    ((Heap.empty : Heap V).run ops).abs = valueRun [] ops := run_refines empty_inv hs

/-- Histories in which no object is resized in place: any number of arithmetic operations, copies,
assignments, transformations, permutations, transpositions, `retain`. -/
theorem C17_no_resize_partial {ops : List (HOp V)} (hs : ∀ op ∈ ops, op.resizes = none) :
    ((Heap.empty : Heap V).run ops).abs = valueRun [] ops := by
  refine C17_independent_partial ?_
  generalize (Heap.empty : Heap V) = h
  induction ops generalizing h with
  | nil => trivial
  | cons op ops ih =>
    unfold SafeRun
    refine ⟨fun i o hr => ?_, ?_⟩
    · rw [hs op List.mem_cons_self] at hr
      cases hr
    · split
      · exact ih (fun o ho => hs o (List.mem_cons_of_mem _ ho)) _
      · exact ih (fun o ho => hs o (List.mem_cons_of_mem _ ho)) _

/-! Histories without arithmetic operators that return new objects never share. -/

theorem dims_lt {h : Heap V} (hi : HInv h) : ∀ d ∈ h.dimsAddrs, d < h.nDims := by
  intro d hd
  unfold dimsAddrs at hd
  obtain ⟨o, ho, rfl⟩ := List.mem_map.1 hd
  obtain ⟨i, hio⟩ := List.mem_iff_getElem?.1 ho
  exact (hi.ok i o hio).2.1

theorem own_of_nodup {h : Heap V} (hn : h.dimsAddrs.Nodup) {i : Nat} {o : HObj} (hio : h.objs[i]? = some o) :
    h.OwnDims i o := by
  rw [ownDims_iff]
  intro j d hj hji hd
  subst hd
  have h1 : h.dimsAddrs[i]? = some o.dims := by unfold dimsAddrs; rw [List.getElem?_map, hio]; rfl
  obtain ⟨l1, e1⟩ := List.getElem?_eq_some_iff.1 hj
  obtain ⟨l2, e2⟩ := List.getElem?_eq_some_iff.1 h1
  exact hji ((List.Nodup.getElem_inj_iff hn).1 (e1.trans e2.symm))

theorem nodup_push {h : Heap V} (hi : HInv h) (hn : h.dimsAddrs.Nodup) (vs : List (List V)) (d : Nat × Nat) :
    (h.push vs d).dimsAddrs.Nodup := by
  show (List.map HObj.dims (h.objs ++ [(⟨_, h.nDims⟩ : HObj)])).Nodup
  rw [List.map_append, List.nodup_append]
  refine ⟨hn, List.nodup_singleton _, ?_⟩
  intro a ha b hb hab
  have := dims_lt hi a ha
  rw [List.map_singleton, List.mem_singleton] at hb
  dsimp only at hb
  omega

theorem nodup_assignDims {h : Heap V} (hi : HInv h) (hn : h.dimsAddrs.Nodup) (i : Nat) (d : Nat × Nat) :
    (h.assignDims i d).dimsAddrs.Nodup := by
  show (List.map HObj.dims (h.objs.modify i (fun o => { o with dims := h.nDims }))).Nodup
  rw [map_modify_comm (f := HObj.dims) (g := fun o => { o with dims := h.nDims }) (g' := fun _ => h.nDims)
    h.objs i (fun _ _ _ _ => rfl)]
  have hlt := dims_lt hi
  unfold dimsAddrs at hn hlt
  rw [List.nodup_iff_pairwise_ne, List.pairwise_iff_getElem]
  intro a b ha hb hab
  rw [List.length_modify] at ha hb
  rw [List.getElem_modify, List.getElem_modify]
  have h1 := hlt _ (List.getElem_mem ha)
  have h2 := hlt _ (List.getElem_mem hb)
  have h3 : (List.map HObj.dims h.objs)[a] ≠ (List.map HObj.dims h.objs)[b] :=
    fun e => by have := (List.Nodup.getElem_inj_iff hn).1 e; omega
  split <;> split <;> omega

theorem nodup_reference {h : Heap V} (hi : HInv h) (hn : h.dimsAddrs.Nodup) (i : Nat) (vs : List (List V))
    (d : Nat × Nat) : (h.reference i vs d).dimsAddrs.Nodup :=
  nodup_assignDims (assignRows_spec hi i vs).1 (by rw [dimsAddrs_assignRows]; exact hn) i d

theorem dimsAddrs_setitemIn (h : Heap V) (o : HObj) (x y : Nat) (v : V) :
    (h.setitemIn o x y v).dimsAddrs = h.dimsAddrs := by
  unfold setitemIn
  split <;> rfl

theorem dimsAddrs_permuteIn (h : Heap V) (o : HObj) (ax : Ax) (order : List Nat) :
    (h.permuteIn o ax order).dimsAddrs = h.dimsAddrs := by
  cases ax <;> rfl

theorem dimsAddrs_takeOut (h : Heap V) (i : Nat) (o : HObj) (ax : Ax) (tgt : List Nat) :
    (h.takeOut i o ax tgt).dimsAddrs = h.dimsAddrs := by
  cases ax
  · exact dimsAddrs_assignOuter ..
  · exact dimsAddrs_assignRows ..

theorem dimsAddrs_insertInto (h : Heap V) (i : Nat) (o p : HObj) (ax : Ax) (before : Nat) :
    (h.insertInto i o ax before p).dimsAddrs = h.dimsAddrs := by
  cases ax
  · exact dimsAddrs_assignOuter (h.allocRows (h.contents p)).1 i _
  · exact dimsAddrs_assignRows ..

theorem step_nodup {h h' : Heap V} (hi : HInv h) (hn : h.dimsAddrs.Nodup) {op : HOp V}
    (ha : op.arithmetic = false) (hs : h.step op = .ok h') : h'.dimsAddrs.Nodup := by
  have hex : ∀ i o ax tgt vs d, h.get i = .ok o → ((h.takeOut i o ax tgt).push vs d).dimsAddrs.Nodup := by
    intro i o ax tgt vs d hg
    rcases get_cases h i with ⟨o', hio, g1, _⟩ | ⟨g1, _⟩
    · rw [hg] at g1
      cases g1
      refine nodup_push (storeDims_inv (keepRest_spec hi hio ax tgt).1 _ _) ?_ _ _
      have := dimsAddrs_takeOut h i o ax tgt
      unfold takeOut at this
      rw [this]
      exact hn
    · rw [hg] at g1
      cases g1
  cases op <;> simp only [step, bind, Except.bind, pure, Except.pure] at hs <;>
    (try cases ha) <;> (repeat' split at hs) <;> (try cases hs) <;>
    first
      | exact nodup_push hi hn _ _
      | exact nodup_reference hi hn _ _ _
      | (rw [dimsAddrs_setitemIn]; exact hn)
      | (rw [dimsAddrs_permuteIn]; exact hn)
      | (rw [dimsAddrs_takeOut]; exact hn)
      | (rw [dimsAddrs_insertInto]; exact hn)
      | exact hn
      | exact hex _ _ _ _ _ _ (by assumption)

theorem safe_of_noArith {h : Heap V} (hi : HInv h) (hn : h.dimsAddrs.Nodup) {ops : List (HOp V)}
    (ha : ∀ op ∈ ops, op.arithmetic = false) : h.SafeRun ops := by
  induction ops generalizing h with
  | nil => trivial
  | cons op ops ih =>
    unfold SafeRun
    refine ⟨fun i o _ hio => own_of_nodup hn hio, ?_⟩
    rcases step_refines hi op with ⟨h', w, h1, _, h3, _⟩ | ⟨e, h1, _⟩
    · rw [h1]
      exact ih h3 (step_nodup hi hn (ha op List.mem_cons_self) h1)
        (fun o ho => ha o (List.mem_cons_of_mem _ ho))
    · rw [h1]
      exact ih hi hn (fun o ho => ha o (List.mem_cons_of_mem _ ho))

/-- Histories of any operations except arithmetic operators that return a new object (the in-place
operators `+=`, … are allowed): all objects behave as independent values. -/
theorem C17_inplace_partial {ops : List (HOp V)} (ha : ∀ op ∈ ops, op.arithmetic = false) :
    ((Heap.empty : Heap V).run ops).abs = valueRun [] ops :=
  C17_independent_partial (safe_of_noArith empty_inv List.nodup_nil ha)

/-- **C17 does not hold for the shape.** `c = a + b` refers to the very list in which `a` records its
shape (base.py:5436), and removing or adding points changes that list in place (axis.py:1232, 1490):
after `c.points.delete(0)` of two 2 x 1 objects, `a` has the shape 1 x 1 while it still holds two
points. -/
theorem C17_shape_violated :
    ¬ ∀ (ops : List (HOp Int)) (op : HOp Int) (h' : Heap Int), (Heap.empty.run ops).step op = .ok h' →
      ∀ k, k < (Heap.empty.run ops).abs.length → op.target ≠ some k →
        (h'.abs[k]?).map Tab.shape = ((Heap.empty.run ops).abs[k]?).map Tab.shape := by
  intro hh
  have := hh [.new 1 [[1], [2]], .new 1 [[3], [4]], .binop 0 1 (· + ·)] (.delete 2 .point [0]) _ rfl 0
    (by decide) (by decide)
  revert this
  decide

/-- The same through the operand: adding points to `a` after `c = a * 2` changes the shape of `c`. -/
theorem C17_operand_violated :
    ¬ ∀ ops : List (HOp Int), ((Heap.empty : Heap Int).run ops).abs = valueRun [] ops := by
  intro hh
  have := hh [.new 1 [[1], [2]], .scalar 0 (· * 2), .insert 0 .point 2 0]
  revert this
  decide

/-- A history meeting the hypotheses of `C17_independent_partial` although it shares, and its result:
the result of `a + b` is copied before it is changed. -/
theorem C17_example :
    (Heap.empty : Heap Int).SafeRun [.new 2 [[1, 2], [3, 4]], .new 2 [[5, 6], [7, 8]], .binop 0 1 (· + ·),
      .copy 2, .extract 3 .point [0], .insert 3 .point 1 0, .setitem 4 0 1 9, .permute 0 .point [1, 0]] ∧
    ((Heap.empty : Heap Int).run [.new 2 [[1, 2], [3, 4]], .new 2 [[5, 6], [7, 8]], .binop 0 1 (· + ·),
      .copy 2, .extract 3 .point [0], .insert 3 .point 1 0, .setitem 4 0 1 9, .permute 0 .point [1, 0]]).abs
      = [⟨(2, 2), [[3, 4], [1, 2]]⟩, ⟨(2, 2), [[5, 6], [7, 8]]⟩, ⟨(2, 2), [[6, 8], [10, 12]]⟩,
         ⟨(3, 2), [[10, 12], [1, 2], [3, 4]]⟩, ⟨(1, 2), [[6, 9]]⟩] := by
  refine ⟨?_, by decide⟩
  refine ⟨?_, ?_, ?_, ?_, ?_, ?_, ?_, ?_, trivial⟩
  all_goals
    intro i o hr hio
    cases hr
  all_goals
    rw [ownDims_iff]
    cases hio
    intro j d hj
    rcases j with _ | _ | _ | _ | _ | j
    all_goals first
      | (cases hj; done)
      | (cases hj; decide)

end Heap
end Mem
end Nimble
