import Verif.Props.SparseCore
import Verif.Model.Insert

/-!
# C18: structural operations of the `Sparse` representation against the dense one
-/

namespace Nimble
namespace Sp
variable {V : Type}

/-! ## Entries along an axis -/

theorem mkOn_inj {ax : Ax} {p o p' o' : Nat} {v v' : V} :
    Ent.mkOn ax p o v = Ent.mkOn ax p' o' v' ↔ p = p' ∧ o = o' ∧ v = v' := by
  cases ax <;> simp [Ent.mkOn]
  tauto

theorem mkOn_on (ax : Ax) (e : Ent V) : Ent.mkOn ax (e.on ax) (e.on ax.off) e.val = e := by
  cases ax <;> rfl

theorem on_mkOn (ax : Ax) (p o : Nat) (v : V) : (Ent.mkOn ax p o v).on ax = p := by
  cases ax <;> rfl

theorem off_mkOn (ax : Ax) (p o : Nat) (v : V) : (Ent.mkOn ax p o v).on ax.off = o := by
  cases ax <;> rfl

theorem val_mkOn (ax : Ax) (p o : Nat) (v : V) : (Ent.mkOn ax p o v).val = v := by
  cases ax <;> rfl

/-- The coordinates seen from an axis. -/
def Ent.posA (ax : Ax) (e : Ent V) : Nat × Nat := (e.on ax, e.on ax.off)

theorem posA_mkOn (ax : Ax) (p o : Nat) (v : V) : (Ent.mkOn ax p o v).posA ax = (p, o) := by
  cases ax <;> rfl

theorem nodup_posA (ax : Ax) (l : List (Ent V)) :
    (l.map (Ent.posA ax)).Nodup ↔ (l.map Ent.pos).Nodup := by
  cases ax
  · rfl
  · have : l.map (Ent.posA .feature) = (l.map Ent.pos).map Prod.swap := by
      rw [List.map_map]; rfl
    rw [this, List.nodup_map_iff Prod.swap_injective]

/-- Proper entries, seen from an axis. -/
theorem core_iff [Zero V] (ax : Ax) (c : Coo V) : c.Core ↔
    (c.ents.map (Ent.posA ax)).Nodup ∧
    ∀ e ∈ c.ents, e.on ax < c.size ax ∧ e.on ax.off < c.size ax.off ∧ e.val ≠ 0 := by
  constructor
  · intro h
    refine ⟨(nodup_posA ax _).2 h.nodup, fun e he => ?_⟩
    have h1 := h.row_lt e he
    have h2 := h.col_lt e he
    have h3 := h.nonzero e he
    cases ax
    · exact ⟨h1, h2, h3⟩
    · exact ⟨h2, h1, h3⟩
  · rintro ⟨h1, h2⟩
    refine ⟨(nodup_posA ax _).1 h1, fun e he => ?_, fun e he => ?_, fun e he => (h2 e he).2.2⟩
    · cases ax
      · exact (h2 e he).1
      · exact (h2 e he).2.1
    · cases ax
      · exact (h2 e he).2.1
      · exact (h2 e he).1

namespace Coo

/-- The element at position `p` along an axis, `o` along the other. -/
def atA [Zero V] (c : Coo V) (ax : Ax) (p o : Nat) : V :=
  match ax with
  | .point => c.at p o
  | .feature => c.at o p

theorem atA_eq [Zero V] {c d : Coo V} (ax : Ax) (hc : (c.ents.map Ent.pos).Nodup)
    (hd : (d.ents.map Ent.pos).Nodup) {p o p' o' : Nat}
    (h : ∀ v, Ent.mkOn ax p o v ∈ c.ents ↔ Ent.mkOn ax p' o' v ∈ d.ents) :
    c.atA ax p o = d.atA ax p' o' := by
  cases ax
  · exact at_eq hc hd h
  · exact at_eq hc hd h

/-- A table given by its elements seen from an axis. -/
def tabA (ax : Ax) (n m : Nat) (f : Nat → Nat → V) : List (List V) :=
  match ax with
  | .point => (List.range n).map (fun i => (List.range m).map (fun j => f i j))
  | .feature => (List.range m).map (fun i => (List.range n).map (fun j => f j i))

theorem dense_tabA [Zero V] (ax : Ax) (c : Coo V) :
    c.dense = tabA ax (c.size ax) (c.size ax.off) (c.atA ax) := by
  cases ax <;> rfl

theorem tabA_congr {ax : Ax} {n m n' m' : Nat} {f g : Nat → Nat → V} (hn : n = n') (hm : m = m')
    (h : ∀ p o, p < n → o < m → f p o = g p o) : tabA ax n m f = tabA ax n' m' g := by
  subst hn hm
  cases ax
  · unfold tabA
    dsimp only
    apply List.map_congr_left; intro i hi
    apply List.map_congr_left; intro j hj
    exact h i j (List.mem_range.1 hi) (List.mem_range.1 hj)
  · unfold tabA
    dsimp only
    apply List.map_congr_left; intro i hi
    apply List.map_congr_left; intro j hj
    exact h j i (List.mem_range.1 hj) (List.mem_range.1 hi)

theorem pick_range_map {A : Type} (f : Nat → A) (n : Nat) {tgt : List Nat} (h : ∀ i ∈ tgt, i < n) :
    pick ((List.range n).map f) tgt
      = (List.range tgt.length).map (fun k => f ((tgt[k]?).getD 0)) := by
  apply List.ext_getElem?
  intro k
  rw [getElem?_pick (by simpa using h)]
  by_cases hk : k < tgt.length
  · have := h _ (List.getElem_mem hk)
    simp [hk, this]
  · simp [hk]

theorem selData_tabA (ax : Ax) (n m : Nat) (f : Nat → Nat → V) {tgt : List Nat}
    (h : ∀ i ∈ tgt, i < n) :
    Obj.selData ax (tabA ax n m f) tgt
      = tabA ax tgt.length m (fun p o => f ((tgt[p]?).getD 0) o) := by
  cases ax
  · exact pick_range_map _ n h
  · unfold Obj.selData tabA
    dsimp only
    rw [List.map_map]
    apply List.map_congr_left
    intro i _
    exact pick_range_map _ n h

/-- Inserting a block into a list of values. -/
theorem insert_range {A : Type} (f g : Nat → A) (n k i : Nat) (hi : i ≤ n) :
    ((List.range n).map f).take i ++ (List.range k).map g ++ ((List.range n).map f).drop i
      = (List.range (n + k)).map
        (fun p => if p < i then f p else if p < i + k then g (p - i) else f (p - k)) := by
  apply List.ext_getElem?
  intro q
  by_cases h1 : q < i
  · rw [List.append_assoc, List.getElem?_append_left (by simp; omega)]
    simp [h1, List.getElem?_take]
    rw [List.getElem?_range (by omega), List.getElem?_range (by omega)]
    simp [h1]
  · by_cases h2 : q < i + k
    · rw [List.append_assoc, List.getElem?_append_right (by simp; omega),
        List.getElem?_append_left (by simp; omega)]
      simp only [List.length_take, List.length_map, List.length_range, List.getElem?_map,
        Nat.min_eq_left hi]
      rw [List.getElem?_range (by omega), List.getElem?_range (by omega)]
      simp [h1, h2]
    · rw [List.getElem?_append_right (by simp; omega)]
      simp only [List.length_append, List.length_take, List.length_map, List.length_range,
        Nat.min_eq_left hi, List.getElem?_drop, List.getElem?_map]
      by_cases h3 : q < n + k
      · rw [List.getElem?_range (by omega), List.getElem?_range h3]
        simp only [Option.map_some, if_neg h1, if_neg h2]
        congr 2; omega
      · rw [List.getElem?_eq_none (by simp; omega), List.getElem?_eq_none (by simp; omega)]
        rfl

/-- `insertData` is one formula. -/
theorem insertData_list (n : Nat) {data ins : List (List V)} {i : Nat} (hl : data.length = n) :
    Obj.insertData .point n data ins i = data.take i ++ ins ++ data.drop i := by
  unfold Obj.insertData
  dsimp only
  split
  · rfl
  · next h =>
    split
    · next h0 => subst h0; simp
    · next h0 =>
      have : i = n := by omega
      subst this
      simp [← hl]

theorem insertData_tabA (ax : Ax) (n m k : Nat) (f g : Nat → Nat → V) {i : Nat} (hi : i ≤ n) :
    Obj.insertData ax n (tabA ax n m f) (tabA ax k m g) i
      = tabA ax (n + k) m
        (fun p o => if p < i then f p o else if p < i + k then g (p - i) o else f (p - k) o) := by
  cases ax
  · rw [insertData_list n (by simp [tabA])]
    unfold tabA
    dsimp only
    rw [insert_range _ _ _ _ _ hi]
    apply List.map_congr_left
    intro p _
    split
    · rfl
    · split <;> rfl
  · unfold Obj.insertData tabA
    dsimp only
    have hz : ∀ (a b : Nat → List V), List.zipWith (· ++ ·) ((List.range m).map a)
        ((List.range m).map b) = (List.range m).map (fun x => a x ++ b x) := by
      intro a b
      rw [List.zipWith_map, List.zipWith_self]
    rw [List.map_map, List.map_map]
    have hrow : ∀ x, (((List.range n).map (fun j => f j x)).take i ++ (List.range k).map (fun j => g j x)
        ++ ((List.range n).map (fun j => f j x)).drop i)
        = (List.range (n + k)).map (fun j =>
          if j < i then f j x else if j < i + k then g (j - i) x else f (j - k) x) :=
      fun x => insert_range _ _ _ _ _ hi
    split
    · rw [hz, hz]
      apply List.map_congr_left
      intro x _
      exact hrow x
    · split
      · next h0 =>
        subst h0
        rw [hz]
        apply List.map_congr_left
        intro x _
        rw [← hrow x]; simp
      · have hin : i = n := by omega
        subst hin
        rw [hz]
        apply List.map_congr_left
        intro x _
        rw [← hrow x, List.take_of_length_le (by simp), List.drop_eq_nil_of_le (by simp)]
        simp

theorem repeatList_range {A : Type} (vbv : Bool) (k n : Nat) (f : Nat → A) :
    repeatList vbv k ((List.range n).map f)
      = (List.range (n * k)).map (fun p => f (if vbv then p / k else p % n)) := by
  cases vbv
  · simp only [repeatList, Bool.false_eq_true, if_false]
    induction k with
    | zero => simp
    | succ k ih =>
      rw [List.replicate_succ', List.flatten_append, ih, Nat.mul_succ, List.range_add,
        List.map_append]
      congr 1
      simp only [List.flatten_cons, List.flatten_nil, List.append_nil, List.map_map]
      apply List.map_congr_left
      intro j hj
      have := List.mem_range.1 hj
      simp [Nat.mul_add_mod, Nat.mod_eq_of_lt this]
  · simp only [repeatList, if_true]
    induction n with
    | zero => simp
    | succ n ih =>
      rw [List.range_succ, List.map_append, List.flatMap_append, ih, Nat.succ_mul, List.range_add,
        List.map_append]
      congr 1
      simp only [List.map_cons, List.map_nil, List.flatMap_cons, List.flatMap_nil, List.append_nil,
        List.map_map]
      apply List.ext_getElem?
      intro q
      by_cases hq : q < k
      · simp only [List.getElem?_replicate, hq, if_true, List.getElem?_map, List.getElem?_range hq,
          Option.map_some, Function.comp]
        congr 2
        rw [Nat.mul_comm, Nat.mul_add_div (by omega), Nat.div_eq_of_lt hq]; rfl
      · rw [List.getElem?_eq_none (by simp; omega), List.getElem?_eq_none (by simp; omega)]

theorem repeatData_tabA (ax : Ax) (vbv : Bool) (k n m : Nat) (f : Nat → Nat → V) :
    repeatData ax vbv k (tabA ax n m f)
      = tabA ax (n * k) m (fun p o => f (if vbv then p / k else p % n) o) := by
  cases ax
  · unfold repeatData tabA
    dsimp only
    rw [repeatList_range]
  · unfold repeatData tabA
    dsimp only
    rw [List.map_map]
    apply List.map_congr_left
    intro x _
    exact repeatList_range vbv k n (fun j => f j x)

/-! ## The operations -/

variable [Zero V]

/-- Objects without recorded order need only proper entries. -/
theorem Core.wf {c : Coo V} (h : c.Core) (hs : c.sorted = none) (hi : c.indices = none) : c.WF where
  toCore := h
  sorted_ok := by intro ax hax; rw [hs] at hax; cases hax
  indices_ok := by intro l hl; rw [hi] at hl; cases hl

/-- Transposing. -/
theorem transpose_core {c : Coo V} (h : c.Core) : c.transpose.Core where
  nodup := by
    have : c.transpose.ents.map Ent.pos = (c.ents.map Ent.pos).map Prod.swap := by
      simp [transpose, Ent.pos]
    rw [this]
    exact h.nodup.map Prod.swap_injective
  row_lt := by
    intro e he
    obtain ⟨e', he', rfl⟩ := List.mem_map.1 he
    exact h.col_lt e' he'
  col_lt := by
    intro e he
    obtain ⟨e', he', rfl⟩ := List.mem_map.1 he
    exact h.row_lt e' he'
  nonzero := by
    intro e he
    obtain ⟨e', he', rfl⟩ := List.mem_map.1 he
    exact h.nonzero e' he'

/-- `transpose()` of a Sparse object is the transposed dense table. -/
theorem C18_transpose {c : Coo V} (h : c.WF) :
    c.transpose.WF ∧ c.transpose.rows = c.cols ∧ c.transpose.cols = c.rows ∧
    c.transpose.dense = Obj.transposeData c.cols c.dense := by
  have hcore := transpose_core h.toCore
  refine ⟨hcore.wf rfl rfl, rfl, rfl, ?_⟩
  unfold Obj.transposeData
  show (List.range c.cols).map (fun i => (List.range c.rows).map (fun j => c.transpose.at i j)) = _
  apply List.map_congr_left
  intro i hi
  have hi := List.mem_range.1 hi
  have : c.dense.filterMap (fun r => r[i]?) = (List.range c.rows).map (fun j => c.at j i) := by
    unfold dense
    rw [List.filterMap_map]
    rw [← List.filterMap_eq_map]
    apply List.filterMap_congr
    intro j _
    simp [hi]
  rw [this]
  apply List.map_congr_left
  intro j _
  refine at_eq hcore.nodup h.nodup ?_
  intro v
  constructor
  · intro hm
    obtain ⟨e, he, heq⟩ := List.mem_map.1 hm
    cases e
    simp only [Ent.mk.injEq] at heq
    obtain ⟨rfl, rfl, rfl⟩ := heq
    exact he
  · intro hm
    exact List.mem_map.2 ⟨_, hm, rfl⟩

/-! ### Selecting -/

omit [Zero V] in
theorem mem_selEnts {ax : Ax} {ents : List (Ent V)} {tgt : List Nat} {p o : Nat} {v : V} :
    Ent.mkOn ax p o v ∈ selEnts ax ents tgt ↔ ∃ i, tgt[p]? = some i ∧ Ent.mkOn ax i o v ∈ ents := by
  unfold selEnts
  simp only [List.mem_flatMap, List.mem_map, List.mem_filter, decide_eq_true_eq, Prod.exists,
    List.mk_mem_zipIdx_iff_getElem?]
  constructor
  · rintro ⟨i, q, hq, e, ⟨he, hon⟩, heq⟩
    rw [mkOn_inj] at heq
    obtain ⟨rfl, rfl, rfl⟩ := heq
    refine ⟨i, hq, ?_⟩
    rw [← hon, mkOn_on]; exact he
  · rintro ⟨i, hi, he⟩
    exact ⟨i, p, hi, _, ⟨he, on_mkOn ..⟩, by rw [off_mkOn, val_mkOn]⟩

omit [Zero V] in
theorem nodup_selEnts {ax : Ax} {ents : List (Ent V)} (h : (ents.map (Ent.posA ax)).Nodup)
    (tgt : List Nat) : ((selEnts ax ents tgt).map (Ent.posA ax)).Nodup := by
  unfold selEnts
  rw [List.map_flatMap, List.nodup_flatMap]
  constructor
  · rintro ⟨i, q⟩ _
    rw [List.map_map]
    have h1 : ((ents.filter (fun e => decide (e.on ax = i))).map (Ent.posA ax)).Nodup :=
      h.sublist (List.filter_sublist.map _)
    refine List.Nodup.map_on ?_ h1.of_map
    intro x hx y hy hxy
    simp only [Function.comp, posA_mkOn, Prod.mk.injEq, true_and] at hxy
    have hx' := (List.mem_filter.1 hx).2
    have hy' := (List.mem_filter.1 hy).2
    simp only [decide_eq_true_eq] at hx' hy'
    exact List.inj_on_of_nodup_map h1 hx hy (by simp [Ent.posA, hx', hy', hxy])
  · have hnd : (tgt.zipIdx.map Prod.snd).Nodup := by
      rw [List.zipIdx_map_snd]
      exact List.nodup_range'
    have hp : tgt.zipIdx.Pairwise (fun a b => a.2 ≠ b.2) := List.pairwise_map.1 hnd
    refine hp.imp ?_
    rintro ⟨i, q⟩ ⟨i', q'⟩ hne
    intro x hx hx'
    simp only [List.mem_map] at hx hx'
    obtain ⟨e, ⟨e0, -, rfl⟩, rfl⟩ := hx
    obtain ⟨e', ⟨e0', -, rfl⟩, heq⟩ := hx'
    rw [posA_mkOn, posA_mkOn, Prod.mk.injEq] at heq
    exact hne heq.1.symm

theorem size_select (c : Coo V) (ax : Ax) (tgt : List Nat) :
    (c.select ax tgt).size ax = tgt.length ∧ (c.select ax tgt).size ax.off = c.size ax.off := by
  cases ax <;> exact ⟨rfl, rfl⟩

omit [Zero V] in
theorem forall_ent {ax : Ax} {P : Ent V → Prop} (h : ∀ p o v, P (Ent.mkOn ax p o v)) (e : Ent V) : P e := by
  rw [← mkOn_on ax e]; exact h _ _ _

theorem select_core {c : Coo V} (h : c.Core) (ax : Ax) (tgt : List Nat) : (c.select ax tgt).Core := by
  rw [core_iff ax] at h ⊢
  obtain ⟨h1, h2⟩ := h
  refine ⟨nodup_selEnts h1 tgt, ?_⟩
  refine forall_ent (ax := ax) ?_
  intro p o v he
  obtain ⟨i, hi, hm⟩ := mem_selEnts.1 he
  obtain ⟨a1, a2, a3⟩ := h2 _ hm
  rw [off_mkOn] at a2
  rw [val_mkOn] at a3
  rw [on_mkOn, off_mkOn, val_mkOn, (size_select c ax tgt).1, (size_select c ax tgt).2]
  exact ⟨(List.getElem?_eq_some_iff.1 hi).1, a2, a3⟩

/-- `copy`, `extract`, `delete`, `retain`, sample…: the selected part of a Sparse object holds the
selected part of the dense table, for every list of positions. -/
theorem C18_select {c : Coo V} (h : c.WF) (ax : Ax) {tgt : List Nat} (ht : ∀ i ∈ tgt, i < c.size ax) :
    (c.select ax tgt).WF ∧ (c.select ax tgt).size ax = tgt.length ∧
    (c.select ax tgt).size ax.off = c.size ax.off ∧
    (c.select ax tgt).dense = Obj.selData ax c.dense tgt := by
  have hcore := select_core h.toCore ax tgt
  refine ⟨hcore.wf rfl rfl, (size_select c ax tgt).1, (size_select c ax tgt).2, ?_⟩
  rw [dense_tabA ax c, selData_tabA ax _ _ _ ht, dense_tabA ax]
  refine tabA_congr (size_select c ax tgt).1 (size_select c ax tgt).2 ?_
  intro p o hp _
  rw [(size_select c ax tgt).1] at hp
  refine atA_eq ax hcore.nodup h.nodup ?_
  intro v
  show _ ∈ selEnts ax c.ents tgt ↔ _
  rw [mem_selEnts]
  simp [hp]

/-- What stays in the object after `extract`/`delete`. -/
theorem C18_remaining {c : Coo V} (h : c.WF) (ax : Ax) (tgt : List Nat) :
    (c.remaining ax tgt).WF ∧
    (c.remaining ax tgt).dense = Obj.restData ax (c.size ax) c.dense tgt := by
  have := C18_select h ax (tgt := (List.range (c.size ax)).filter (fun i => i ∉ tgt))
    (by intro i hi; exact List.mem_range.1 (List.mem_filter.1 hi).1)
  exact ⟨this.1, this.2.2.2⟩

/-! ### Permuting -/

theorem getElem?_reverse_fold (l : List (Nat × Nat)) (hl : (l.map Prod.fst).Nodup) (r : List Nat)
    (i : Nat) :
    (∀ k, (i, k) ∈ l → i < r.length →
      (l.foldl (fun r p => r.set p.1 p.2) r)[i]? = some k) ∧
    (i ∉ l.map Prod.fst → (l.foldl (fun r p => r.set p.1 p.2) r)[i]? = r[i]?) := by
  induction l generalizing r with
  | nil => simp
  | cons a l ih =>
    simp only [List.map_cons, List.nodup_cons] at hl
    obtain ⟨ih1, ih2⟩ := ih hl.2 (r.set a.1 a.2)
    simp only [List.foldl_cons]
    constructor
    · intro k hk hlt
      rcases List.mem_cons.1 hk with h | h
      · subst h
        rw [ih2 hl.1]
        simp [hlt]
      · exact ih1 k h (by simpa using hlt)
    · intro hni
      simp only [List.map_cons, List.mem_cons, not_or] at hni
      rw [ih2 hni.2, List.getElem?_set_ne (fun hh => hni.1 hh.symm)]

/-- The reverse map inverts the order. -/
theorem reverseMap_spec {order : List Nat} (hp : order.Perm (List.range order.length)) {k i : Nat}
    (h : order[k]? = some i) : (reverseMap order)[i]? = some k := by
  unfold reverseMap
  have hz : (order.zipIdx.map Prod.fst).Nodup := by
    rw [List.zipIdx_map_fst]
    exact hp.nodup_iff.2 List.nodup_range
  refine (getElem?_reverse_fold order.zipIdx hz _ i).1 k ?_ ?_
  · rw [List.mk_mem_zipIdx_iff_getElem?]; exact h
  · rw [List.length_replicate]
    exact List.mem_range.1 (hp.mem_iff.1 (List.mem_of_getElem? h))

theorem permute_mem {c : Coo V} {ax : Ax} {order : List Nat} (hp : order.Perm (List.range (c.size ax)))
    (hb : ∀ e ∈ c.ents, e.on ax < c.size ax) {p o : Nat} {v : V} :
    Ent.mkOn ax p o v ∈ (c.permute ax order).ents ↔
      ∃ i, order[p]? = some i ∧ Ent.mkOn ax i o v ∈ c.ents := by
  have hlen : order.length = c.size ax := by simpa using hp.length_eq
  have hp' : order.Perm (List.range order.length) := by rw [hlen]; exact hp
  show _ ∈ c.ents.map _ ↔ _
  rw [List.mem_map]
  constructor
  · rintro ⟨e, he, heq⟩
    rw [mkOn_inj] at heq
    obtain ⟨h1, rfl, rfl⟩ := heq
    have hm : e.on ax ∈ order := hp.mem_iff.2 (List.mem_range.2 (hb e he))
    obtain ⟨k, hk⟩ := List.mem_iff_getElem?.1 hm
    rw [reverseMap_spec hp' hk] at h1
    simp only [Option.getD_some] at h1
    subst h1
    exact ⟨_, hk, by rw [mkOn_on]; exact he⟩
  · rintro ⟨i, hi, he⟩
    refine ⟨_, he, ?_⟩
    rw [on_mkOn, off_mkOn, val_mkOn, reverseMap_spec hp' hi]; rfl

theorem permute_core {c : Coo V} (h : c.Core) {ax : Ax} {order : List Nat}
    (hp : order.Perm (List.range (c.size ax))) : (c.permute ax order).Core := by
  have hlen : order.length = c.size ax := by simpa using hp.length_eq
  have hp' : order.Perm (List.range order.length) := by rw [hlen]; exact hp
  have hsz : ∀ a, (c.permute ax order).size a = c.size a := by intro a; cases a <;> rfl
  rw [core_iff ax] at h ⊢
  obtain ⟨h1, h2⟩ := h
  refine ⟨?_, ?_⟩
  · show ((c.ents.map _).map _).Nodup
    rw [List.map_map]
    refine List.Nodup.map_on ?_ h1.of_map
    intro x hx y hy hxy
    simp only [Function.comp, posA_mkOn, Prod.mk.injEq] at hxy
    obtain ⟨kx, hkx⟩ := List.mem_iff_getElem?.1 (hp.mem_iff.2 (List.mem_range.2 (h2 x hx).1))
    obtain ⟨ky, hky⟩ := List.mem_iff_getElem?.1 (hp.mem_iff.2 (List.mem_range.2 (h2 y hy).1))
    rw [reverseMap_spec hp' hkx, reverseMap_spec hp' hky] at hxy
    simp only [Option.getD_some] at hxy
    rw [← hxy.1, hkx] at hky
    exact List.inj_on_of_nodup_map h1 hx hy (by simp [Ent.posA, hxy.2, Option.some.inj hky])
  · refine forall_ent (ax := ax) ?_
    intro p o v he
    obtain ⟨i, hi, hm⟩ := (permute_mem hp (fun e he => (h2 e he).1)).1 he
    obtain ⟨a1, a2, a3⟩ := h2 _ hm
    rw [off_mkOn] at a2
    rw [val_mkOn] at a3
    rw [on_mkOn, off_mkOn, val_mkOn, hsz, hsz, ← hlen]
    exact ⟨(List.getElem?_eq_some_iff.1 hi).1, a2, a3⟩

/-- `permute` (and `sort`, which permutes). -/
theorem C18_permute {c : Coo V} (h : c.WF) {ax : Ax} {order : List Nat}
    (hp : order.Perm (List.range (c.size ax))) :
    (c.permute ax order).WF ∧ (c.permute ax order).rows = c.rows ∧
    (c.permute ax order).cols = c.cols ∧
    (c.permute ax order).dense = Obj.permuteData ax c.dense order := by
  have hcore := permute_core h.toCore hp
  have hlen : order.length = c.size ax := by simpa using hp.length_eq
  have hsz : ∀ a, (c.permute ax order).size a = c.size a := by intro a; cases a <;> rfl
  refine ⟨hcore.wf rfl rfl, rfl, rfl, ?_⟩
  unfold Obj.permuteData
  rw [dense_tabA ax c, selData_tabA ax _ _ _ (fun i hi => List.mem_range.1 (hp.mem_iff.1 hi)),
    dense_tabA ax]
  refine tabA_congr (by rw [hsz, hlen]) (hsz _) ?_
  intro p o hpp _
  rw [hsz, ← hlen] at hpp
  refine atA_eq ax hcore.nodup h.nodup ?_
  intro v
  rw [permute_mem hp (fun e he => (((core_iff ax c).1 h.toCore).2 e he).1)]
  simp [hpp]

/-! ### Inserting -/

theorem size_insert (c : Coo V) (ax : Ax) (before : Nat) (d : Coo V) :
    (c.insert ax before d).size ax = c.size ax + d.size ax ∧
    (c.insert ax before d).size ax.off = c.size ax.off := by
  cases ax <;> exact ⟨rfl, rfl⟩

omit [Zero V] in
theorem ents_insert (c : Coo V) (ax : Ax) (before : Nat) (d : Coo V) :
    (c.insert ax before d).ents
      = c.ents.map (fun e => Ent.mkOn ax (if e.on ax ≥ before then e.on ax + d.size ax else e.on ax)
          (e.on ax.off) e.val)
        ++ d.ents.map (fun e => Ent.mkOn ax (e.on ax + before) (e.on ax.off) e.val) := by
  have h1 : ∀ e : Ent V, (if e.on ax ≥ before then Ent.mkOn ax (e.on ax + d.size ax) (e.on ax.off) e.val else e)
      = Ent.mkOn ax (if e.on ax ≥ before then e.on ax + d.size ax else e.on ax) (e.on ax.off) e.val := by
    intro e
    split
    · rfl
    · rw [mkOn_on]
  have h2 : (c.insert ax before d).ents = c.ents.map (fun e =>
      if e.on ax ≥ before then Ent.mkOn ax (e.on ax + d.size ax) (e.on ax.off) e.val else e)
      ++ d.ents.map (fun e => Ent.mkOn ax (e.on ax + before) (e.on ax.off) e.val) := by
    cases ax <;> rfl
  rw [h2]
  congr 1
  exact List.map_congr_left (fun e _ => h1 e)

omit [Zero V] in
theorem mem_insert {c d : Coo V} {ax : Ax} {i p o : Nat} {v : V}
    (hd : ∀ e ∈ d.ents, e.on ax < d.size ax) :
    Ent.mkOn ax p o v ∈ (c.insert ax i d).ents ↔
      if p < i then Ent.mkOn ax p o v ∈ c.ents
      else if p < i + d.size ax then Ent.mkOn ax (p - i) o v ∈ d.ents
      else Ent.mkOn ax (p - d.size ax) o v ∈ c.ents := by
  rw [ents_insert, List.mem_append, List.mem_map, List.mem_map]
  constructor
  · rintro (⟨e, he, heq⟩ | ⟨e, he, heq⟩)
    · rw [mkOn_inj] at heq
      obtain ⟨h1, rfl, rfl⟩ := heq
      by_cases hge : e.on ax ≥ i
      · rw [if_pos hge] at h1
        rw [if_neg (by omega), if_neg (by omega), ← h1, Nat.add_sub_cancel, mkOn_on]
        exact he
      · rw [if_neg hge] at h1
        rw [if_pos (by omega), ← h1, mkOn_on]
        exact he
    · rw [mkOn_inj] at heq
      obtain ⟨rfl, rfl, rfl⟩ := heq
      have := hd e he
      rw [if_neg (by omega), if_pos (by omega), Nat.add_sub_cancel, mkOn_on]
      exact he
  · intro h
    by_cases h1 : p < i
    · rw [if_pos h1] at h
      refine Or.inl ⟨_, h, ?_⟩
      rw [on_mkOn, off_mkOn, val_mkOn, if_neg (by omega)]
    · rw [if_neg h1] at h
      by_cases h2 : p < i + d.size ax
      · rw [if_pos h2] at h
        refine Or.inr ⟨_, h, ?_⟩
        rw [on_mkOn, off_mkOn, val_mkOn, Nat.sub_add_cancel (by omega)]
      · rw [if_neg h2] at h
        refine Or.inl ⟨_, h, ?_⟩
        rw [on_mkOn, off_mkOn, val_mkOn, if_pos (by omega), Nat.sub_add_cancel (by omega)]

theorem insert_core {c d : Coo V} (hc : c.Core) (hd : d.Core) {ax : Ax} {i : Nat}
    (hi : i ≤ c.size ax) (hoff : d.size ax.off = c.size ax.off) : (c.insert ax i d).Core := by
  rw [core_iff ax] at hc hd ⊢
  obtain ⟨c1, c2⟩ := hc
  obtain ⟨d1, d2⟩ := hd
  refine ⟨?_, ?_⟩
  · rw [ents_insert, List.map_append, List.map_map, List.map_map, List.nodup_append]
    refine ⟨?_, ?_, ?_⟩
    · refine List.Nodup.map_on ?_ c1.of_map
      intro x hx y hy hxy
      simp only [Function.comp, posA_mkOn, Prod.mk.injEq] at hxy
      refine List.inj_on_of_nodup_map c1 hx hy ?_
      simp only [Ent.posA, Prod.mk.injEq]
      refine ⟨?_, hxy.2⟩
      have := hxy.1
      split at this <;> split at this <;> omega
    · refine List.Nodup.map_on ?_ d1.of_map
      intro x hx y hy hxy
      simp only [Function.comp, posA_mkOn, Prod.mk.injEq] at hxy
      refine List.inj_on_of_nodup_map d1 hx hy ?_
      simp only [Ent.posA, Prod.mk.injEq]
      exact ⟨by omega, hxy.2⟩
    · intro a ha b hb hab
      obtain ⟨x, hx, rfl⟩ := List.mem_map.1 ha
      obtain ⟨y, hy, rfl⟩ := List.mem_map.1 hb
      simp only [Function.comp, posA_mkOn, Prod.mk.injEq] at hab
      have h1 := hab.1
      have h2 := (d2 y hy).1
      split at h1 <;> omega
  · refine forall_ent (ax := ax) ?_
    intro p o v he
    rw [mem_insert (fun e he => (d2 e he).1)] at he
    rw [on_mkOn, off_mkOn, val_mkOn, (size_insert c ax i d).1, (size_insert c ax i d).2]
    split at he
    · have := c2 _ he
      rw [on_mkOn, off_mkOn, val_mkOn] at this
      exact ⟨by omega, this.2.1, this.2.2⟩
    · split at he
      · have := d2 _ he
        rw [on_mkOn, off_mkOn, val_mkOn] at this
        exact ⟨by omega, by rw [← hoff]; exact this.2.1, this.2.2⟩
      · have := c2 _ he
        rw [on_mkOn, off_mkOn, val_mkOn] at this
        exact ⟨by omega, this.2.1, this.2.2⟩

/-- `insert` and `append` put the block of the other object at the position. -/
theorem C18_insert {c d : Coo V} (hc : c.WF) (hd : d.WF) {ax : Ax} {i : Nat}
    (hi : i ≤ c.size ax) (hoff : d.size ax.off = c.size ax.off) :
    (c.insert ax i d).WF ∧ (c.insert ax i d).size ax = c.size ax + d.size ax ∧
    (c.insert ax i d).size ax.off = c.size ax.off ∧
    (c.insert ax i d).dense = Obj.insertData ax (c.size ax) c.dense d.dense i := by
  have hcore := insert_core hc.toCore hd.toCore hi hoff
  have hw : (c.insert ax i d).sorted = none ∧ (c.insert ax i d).indices = none := by
    cases ax <;> exact ⟨rfl, rfl⟩
  refine ⟨hcore.wf hw.1 hw.2, (size_insert c ax i d).1, (size_insert c ax i d).2, ?_⟩
  rw [dense_tabA ax c, dense_tabA ax d, hoff, insertData_tabA ax _ _ _ _ _ hi, dense_tabA ax]
  refine tabA_congr (size_insert c ax i d).1 (size_insert c ax i d).2 ?_
  intro p o _ _
  have hm := fun v => mem_insert (c := c) (d := d) (ax := ax) (i := i) (p := p) (o := o) (v := v)
    (fun e he => (((core_iff ax d).1 hd.toCore).2 e he).1)
  by_cases h1 : p < i
  · rw [if_pos h1]
    exact atA_eq ax hcore.nodup hc.nodup (fun v => by rw [hm, if_pos h1])
  · rw [if_neg h1]
    by_cases h2 : p < i + d.size ax
    · rw [if_pos h2]
      exact atA_eq ax hcore.nodup hd.nodup (fun v => by rw [hm, if_neg h1, if_pos h2])
    · rw [if_neg h2]
      exact atA_eq ax hcore.nodup hc.nodup (fun v => by rw [hm, if_neg h1, if_neg h2])

/-! ### Repeating -/

theorem size_repeat (c : Coo V) (ax : Ax) (k : Nat) (vbv : Bool) :
    (c.repeat ax k vbv).size ax = c.size ax * k ∧
    (c.repeat ax k vbv).size ax.off = c.size ax.off := by
  cases ax <;> exact ⟨rfl, rfl⟩

omit [Zero V] in
theorem mem_repeat {c : Coo V} {ax : Ax} {k : Nat} {vbv : Bool} {p o : Nat} {v : V}
    (hc : ∀ e ∈ c.ents, e.on ax < c.size ax) :
    Ent.mkOn ax p o v ∈ (c.repeat ax k vbv).ents ↔
      p < c.size ax * k ∧ Ent.mkOn ax (if vbv then p / k else p % c.size ax) o v ∈ c.ents := by
  unfold «repeat»
  dsimp only
  cases vbv
  · simp only [Bool.false_eq_true, if_false, List.mem_flatMap, List.mem_range, List.mem_map]
    constructor
    · rintro ⟨i, hi, e, he, heq⟩
      rw [mkOn_inj] at heq
      obtain ⟨rfl, rfl, rfl⟩ := heq
      have := hc e he
      refine ⟨?_, ?_⟩
      · calc e.on ax + c.size ax * i < c.size ax * 1 + c.size ax * i := by omega
          _ = c.size ax * (i + 1) := by rw [Nat.mul_add, Nat.add_comm]
          _ ≤ c.size ax * k := Nat.mul_le_mul_left _ (by omega)
      · rw [Nat.add_mul_mod_self_left, Nat.mod_eq_of_lt this, mkOn_on]; exact he
    · rintro ⟨hp, he⟩
      refine ⟨p / c.size ax, Nat.div_lt_of_lt_mul hp, _, he, ?_⟩
      rw [on_mkOn, off_mkOn, val_mkOn, Nat.mod_add_div]
  · simp only [if_true, List.mem_flatMap, List.mem_range, List.mem_map]
    constructor
    · rintro ⟨e, he, i, hi, heq⟩
      rw [mkOn_inj] at heq
      obtain ⟨rfl, rfl, rfl⟩ := heq
      have := hc e he
      refine ⟨?_, ?_⟩
      · calc i + k * e.on ax < k * 1 + k * e.on ax := by omega
          _ = k * (e.on ax + 1) := by rw [Nat.mul_add, Nat.add_comm]
          _ ≤ k * c.size ax := Nat.mul_le_mul_left _ (by omega)
          _ = c.size ax * k := Nat.mul_comm _ _
      · rw [Nat.add_mul_div_left _ _ (by omega), Nat.div_eq_of_lt hi, Nat.zero_add, mkOn_on]; exact he
    · rintro ⟨hp, he⟩
      have hk : 0 < k := by
        rcases Nat.eq_zero_or_pos k with h | h
        · subst h; simp at hp
        · exact h
      refine ⟨_, he, p % k, Nat.mod_lt _ hk, ?_⟩
      rw [on_mkOn, off_mkOn, val_mkOn, Nat.mod_add_div]

theorem repeat_core {c : Coo V} (h : c.Core) (ax : Ax) (k : Nat) (vbv : Bool) :
    (c.repeat ax k vbv).Core := by
  rw [core_iff ax] at h ⊢
  obtain ⟨c1, c2⟩ := h
  refine ⟨?_, ?_⟩
  · unfold «repeat»
    dsimp only
    cases vbv
    · simp only [Bool.false_eq_true, if_false]
      rw [List.map_flatMap, List.nodup_flatMap]
      constructor
      · intro i _
        rw [List.map_map]
        refine List.Nodup.map_on ?_ c1.of_map
        intro x hx y hy hxy
        simp only [Function.comp, posA_mkOn, Prod.mk.injEq] at hxy
        exact List.inj_on_of_nodup_map c1 hx hy (by simp only [Ent.posA, Prod.mk.injEq]; exact ⟨by omega, hxy.2⟩)
      · refine (List.nodup_range (n := k)).imp ?_
        intro i i' hne x hx hx'
        simp only [List.mem_map] at hx hx'
        obtain ⟨_, ⟨e, he, rfl⟩, rfl⟩ := hx
        obtain ⟨_, ⟨e', he', rfl⟩, heq⟩ := hx'
        simp only [posA_mkOn, Prod.mk.injEq] at heq
        have a := (c2 e he).1
        have b := (c2 e' he').1
        have h1 := heq.1
        have : i = i' := by
          have q1 : (e.on ax + c.size ax * i) / c.size ax = i := by
            rw [Nat.add_mul_div_left _ _ (by omega), Nat.div_eq_of_lt a, Nat.zero_add]
          have q2 : (e'.on ax + c.size ax * i') / c.size ax = i' := by
            rw [Nat.add_mul_div_left _ _ (by omega), Nat.div_eq_of_lt b, Nat.zero_add]
          rw [← q1, ← q2, h1]
        exact hne this
    · simp only [if_true]
      rw [List.map_flatMap, List.nodup_flatMap]
      constructor
      · intro e _
        rw [List.map_map]
        refine List.Nodup.map_on ?_ List.nodup_range
        intro x hx y hy hxy
        simp only [Function.comp, posA_mkOn, Prod.mk.injEq] at hxy
        omega
      · have hpw := List.Pairwise.and_mem.1 (List.pairwise_map.1 c1)
        refine hpw.imp ?_
        rintro e e' ⟨he, he', hne⟩ x hx hx'
        simp only [List.mem_map, List.mem_range] at hx hx'
        obtain ⟨_, ⟨i, hi, rfl⟩, rfl⟩ := hx
        obtain ⟨_, ⟨i', hi', rfl⟩, heq⟩ := hx'
        simp only [posA_mkOn, Prod.mk.injEq] at heq
        apply hne
        simp only [Ent.posA, Prod.mk.injEq]
        refine ⟨?_, heq.2.symm⟩
        have q1 : (i + k * e.on ax) / k = e.on ax := by
          rw [Nat.add_mul_div_left _ _ (by omega), Nat.div_eq_of_lt hi, Nat.zero_add]
        have q2 : (i' + k * e'.on ax) / k = e'.on ax := by
          rw [Nat.add_mul_div_left _ _ (by omega), Nat.div_eq_of_lt hi', Nat.zero_add]
        rw [← q1, ← q2, heq.1]
  · refine forall_ent (ax := ax) ?_
    intro p o v he
    rw [mem_repeat (fun e he => (c2 e he).1)] at he
    obtain ⟨a1, a2, a3⟩ := c2 _ he.2
    rw [off_mkOn] at a2
    rw [val_mkOn] at a3
    rw [on_mkOn, off_mkOn, val_mkOn, (size_repeat c ax k vbv).1, (size_repeat c ax k vbv).2]
    exact ⟨he.1, a2, a3⟩

/-- `repeat`. -/
theorem C18_repeat {c : Coo V} (h : c.WF) (ax : Ax) (k : Nat) (vbv : Bool) :
    (c.repeat ax k vbv).WF ∧ (c.repeat ax k vbv).size ax = c.size ax * k ∧
    (c.repeat ax k vbv).size ax.off = c.size ax.off ∧
    (c.repeat ax k vbv).dense = repeatData ax vbv k c.dense := by
  have hcore := repeat_core h.toCore ax k vbv
  refine ⟨hcore.wf rfl rfl, (size_repeat c ax k vbv).1, (size_repeat c ax k vbv).2, ?_⟩
  rw [dense_tabA ax c, repeatData_tabA, dense_tabA ax]
  refine tabA_congr (size_repeat c ax k vbv).1 (size_repeat c ax k vbv).2 ?_
  intro p o hp _
  rw [(size_repeat c ax k vbv).1] at hp
  refine atA_eq ax hcore.nodup h.nodup ?_
  intro v
  rw [mem_repeat (fun e he => (((core_iff ax c).1 h.toCore).2 e he).1)]
  simp [hp]

end Coo
end Sp
end Nimble
