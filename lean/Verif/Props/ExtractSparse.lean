import Verif.Model.ExtractSparse
import Verif.Props.MergeSparse
import Verif.Props.Names
import Verif.Lemmas.NamesPartial

/-!
# C99: names taken out of sparse matrices
-/

namespace Nimble.Sp
variable {V : Type} [Zero V] [DecidableEq V]

/-! ## Specification -/

/-- The name an element stands for; a zero that is not stored is `'0'`. -/
def cellName (text : V → String) (c : Coo V) (i j : Nat) : String :=
  if c.at i j = 0 then "0" else text (c.at i j)

/-- The number of the first row (or column) of the data proper. -/
def off (b : Bool) : Nat := if b then 1 else 0

/-- The names in the first column, below the feature names. -/
def ptNames (text : V → String) (fn : Bool) (c : Coo V) : List String :=
  (List.range (c.rows - off fn)).map (fun i => cellName text c (i + off fn) 0)

/-- The names in the first row, right of the point names. -/
def ftNames (text : V → String) (pn : Bool) (c : Coo V) : List String :=
  (List.range (c.cols - off pn)).map (fun j => cellName text c 0 (j + off pn))

/-- The table without the names. -/
def restTable (pn fn : Bool) (c : Coo V) : List (List V) := (c.dense.drop (off fn)).map (fun r => r.drop (off pn))

/-- The names of an axis: those taken out, or none. -/
def namesOr (b : Bool) (n : Nat) (l : List String) : List (Option String) :=
  if b then l.map some else List.replicate n none

/-- The object holds a table with these names. -/
structure HoldsSp (o : SpObj V) (rows : List (List V)) (pnames fnames : List (Option String)) : Prop where
  wf : o.coo.WF
  data : o.coo.dense = rows
  nP : o.pts.len = o.coo.rows
  nF : o.fts.len = o.coo.cols
  pts : NamesConsistent o.pts
  fts : NamesConsistent o.fts
  pnames : o.pts.getNames = pnames
  fnames : o.fts.getNames = fnames

/-! ## Names by dictionary -/

theorem mem_dict_unique {d : PyDict String Nat} (hd : (PyDict.keys d).Nodup) {s : String} {i j : Nat}
    (hi : (s, i) ∈ d) (hj : (s, j) ∈ d) : i = j := by
  have h1 := PyDict.get?_of_mem hd hi
  have h2 := PyDict.get?_of_mem hd hj
  rw [h1] at h2
  exact Option.some.inj h2

/-- A dictionary which names every element of the axis is accepted. -/
theorem axisOf_ok {n : Nat} {d : PyDict String Nat} {l : List String} (hl : l.length = n)
    (hd : (PyDict.keys d).Nodup) (hm : ∀ (s : String) (i : Nat), (s, i) ∈ d ↔ l[i]? = some s) :
    ∃ a, axisOf n (some d) = .ok a ∧ a.len = n ∧ NamesConsistent a ∧ a.getNames = l.map some := by
  have hdn : d.Nodup := List.Nodup.of_map _ hd
  have hzn : (l.zipIdx).Nodup := by
    refine List.Nodup.of_map Prod.snd ?_
    rw [List.zipIdx_map_snd]
    exact List.nodup_range'
  have hperm : d.Perm l.zipIdx := by
    rw [List.perm_ext_iff_of_nodup hdn hzn]
    rintro ⟨s, i⟩
    rw [hm, List.mem_zipIdx_iff_getElem?]
  have hlen : d.length = n := by rw [hperm.length_eq, List.length_zipIdx, hl]
  have hlt : ∀ p ∈ d, p.2 < n := by
    rintro ⟨s, i⟩ hp
    have := (hm s i).1 hp
    obtain ⟨h, _⟩ := List.getElem?_eq_some_iff.1 this
    omega
  let dd : PyDict (Option String) Int := d.map (fun p => (some p.1, (p.2 : Int)))
  have hdd : dropNoneKey dd = d.map (fun p => (p.1, (p.2 : Int))) := by
    unfold dropNoneKey
    show (d.map (fun p => (some p.1, (p.2 : Int)))).filterMap _ = _
    rw [List.filterMap_map]
    show d.filterMap (fun p => some (p.1, (p.2 : Int))) = _
    rw [List.filterMap_eq_map']
  have hset : ∃ a, AxisSt.setNames ⟨n, none⟩ (.dict dd) = .ok a := by
    unfold AxisSt.setNames
    dsimp only
    rw [if_neg (by simpa [dd] using hlen)]
    split
    · exact ⟨_, rfl⟩
    · rw [hdd, fillReverse_eq n d _ hlt]
      exact ⟨_, rfl⟩
  obtain ⟨a, ha⟩ := hset
  have hk : (PyDict.keys dd).Nodup := by
    show ((d.map (fun p => (some p.1, (p.2 : Int)))).map Prod.fst).Nodup
    rw [List.map_map]
    have : (Prod.fst ∘ fun p : String × Nat => (some p.1, (p.2 : Int))) = some ∘ Prod.fst := rfl
    rw [this, ← List.map_map]
    exact List.Nodup.map (Option.some_injective _) hd
  have hmem : ∀ (s : String) (v : Int), (some s, v) ∈ dd ↔ ∃ i : Nat, v = i ∧ (s, i) ∈ d := by
    intro s v
    show (some s, v) ∈ d.map _ ↔ _
    rw [List.mem_map]
    constructor
    · rintro ⟨⟨s', i⟩, hp, he⟩
      simp only [Prod.mk.injEq, Option.some.injEq] at he
      obtain ⟨rfl, rfl⟩ := he
      exact ⟨i, rfl, hp⟩
    · rintro ⟨i, rfl, hp⟩
      exact ⟨_, hp, rfl⟩
  obtain ⟨h1, h2, h3⟩ := C02_setNames_dict_exact_partial hk (by
    intro s s' v hs hs'
    obtain ⟨i, rfl, hi⟩ := (hmem s v).1 hs
    obtain ⟨j, hj, hi'⟩ := (hmem s' _).1 hs'
    have : i = j := by omega
    subst this
    have e1 := (hm s i).1 hi
    rw [(hm s' i).1 hi'] at e1
    exact (Option.some.inj e1).symm) ha
  refine ⟨a, ?_, h1, h2, ?_⟩
  · show (if d.length ≠ n then _ else _) = _
    rw [if_neg (not_not.2 hlen)]
    exact ha
  · apply List.ext_getElem?
    intro i
    have hL := h2.length_getNames
    rw [h1] at hL
    by_cases hi : i < n
    · obtain ⟨s, hs⟩ : ∃ s, l[i]? = some s := ⟨_, List.getElem?_eq_getElem (by omega)⟩
      rw [List.getElem?_map, hs]
      exact (h3 s i).2 ((hmem s i).2 ⟨i, rfl, (hm s i).2 hs⟩)
    · rw [List.getElem?_eq_none (by show _ ≤ i; rw [hL]; show n ≤ i; omega), List.getElem?_eq_none (by simp; omega)]

/-- A dictionary of the names in a list with a repetition is too short. -/
theorem axisOf_refused {n : Nat} {d : PyDict String Nat} {l : List String} (hl : l.length = n)
    (hd : (PyDict.keys d).Nodup) (hs : ∀ s ∈ PyDict.keys d, s ∈ l) (hn : ¬ l.Nodup) :
    axisOf n (some d) = .error .InvalidArgumentValue := by
  have hlen : d.length ≠ n := by
    intro hc
    apply hn
    have hsub : (PyDict.keys d).Subperm l := List.subperm_of_subset hd hs
    have hp := hsub.perm_of_length_le (by
      unfold PyDict.keys
      rw [List.length_map]; omega)
    exact hp.nodup_iff.1 hd
  show (if d.length ≠ n then _ else _) = _
  rw [if_pos hlen]

/-! ## The matrices -/

theorem dropCol_spec {c : Coo V} (h : c.WF) (hc : 0 < c.cols) :
    (dropCol c).WF ∧ ∀ i j, (dropCol c).at i j = c.at i (j + 1) := by
  have hnd : ((dropCol c).ents.map Ent.pos).Nodup := by
    show (((c.ents.filter _).map _).map Ent.pos).Nodup
    rw [List.map_map, List.nodup_map_iff_inj_on (List.Nodup.of_map _ h.nodup |>.filter _)]
    intro a ha b hb hab
    simp only [List.mem_filter, decide_eq_true_eq] at ha hb
    simp only [Function.comp, Ent.pos, Prod.mk.injEq] at hab
    have : a.pos = b.pos := Prod.ext hab.1 (show a.col = b.col by omega)
    exact List.inj_on_of_nodup_map h.nodup ha.1 hb.1 this
  have hmem : ∀ e, e ∈ (dropCol c).ents ↔ (⟨e.row, e.col + 1, e.val⟩ : Ent V) ∈ c.ents := by
    intro e
    show e ∈ (c.ents.filter _).map _ ↔ _
    simp only [List.mem_map, List.mem_filter, decide_eq_true_eq]
    constructor
    · rintro ⟨a, ⟨ha, h0⟩, rfl⟩
      have : (⟨a.row, a.col - 1 + 1, a.val⟩ : Ent V) = a := by
        cases a; simp only [Ent.mk.injEq, true_and, and_true]; simp only at h0; omega
      rw [this]; exact ha
    · intro ha
      exact ⟨_, ⟨ha, by simp⟩, by simp⟩
  refine ⟨?_, fun i j => Coo.at_eq hnd h.nodup (fun v => hmem ⟨i, j, v⟩)⟩
  exact {
    nodup := hnd
    row_lt := fun e he => by
      have := h.row_lt _ ((hmem e).1 he)
      exact this
    col_lt := fun e he => by
      have := h.col_lt _ ((hmem e).1 he)
      show e.col < c.cols - 1
      simp only at this
      omega
    nonzero := fun e he => by
      have := h.nonzero _ ((hmem e).1 he)
      exact this
    sorted_ok := fun _ hh => by cases hh
    indices_ok := fun _ hh => by cases hh }

theorem dropRow_spec {c : Coo V} (h : c.WF) (hc : 0 < c.rows) :
    (dropRow c).WF ∧ ∀ i j, (dropRow c).at i j = c.at (i + 1) j := by
  have hnd : ((dropRow c).ents.map Ent.pos).Nodup := by
    show (((c.ents.filter _).map _).map Ent.pos).Nodup
    rw [List.map_map, List.nodup_map_iff_inj_on (List.Nodup.of_map _ h.nodup |>.filter _)]
    intro a ha b hb hab
    simp only [List.mem_filter, decide_eq_true_eq] at ha hb
    simp only [Function.comp, Ent.pos, Prod.mk.injEq] at hab
    have : a.pos = b.pos := Prod.ext (show a.row = b.row by omega) hab.2
    exact List.inj_on_of_nodup_map h.nodup ha.1 hb.1 this
  have hmem : ∀ e, e ∈ (dropRow c).ents ↔ (⟨e.row + 1, e.col, e.val⟩ : Ent V) ∈ c.ents := by
    intro e
    show e ∈ (c.ents.filter _).map _ ↔ _
    simp only [List.mem_map, List.mem_filter, decide_eq_true_eq]
    constructor
    · rintro ⟨a, ⟨ha, h0⟩, rfl⟩
      have : (⟨a.row - 1 + 1, a.col, a.val⟩ : Ent V) = a := by
        cases a; simp only [Ent.mk.injEq, and_true]; simp only at h0; omega
      rw [this]; exact ha
    · intro ha
      exact ⟨_, ⟨ha, by simp⟩, by simp⟩
  refine ⟨?_, fun i j => Coo.at_eq hnd h.nodup (fun v => hmem ⟨i, j, v⟩)⟩
  exact {
    nodup := hnd
    row_lt := fun e he => by
      have := h.row_lt _ ((hmem e).1 he)
      show e.row < c.rows - 1
      simp only at this
      omega
    col_lt := fun e he => by
      have := h.col_lt _ ((hmem e).1 he)
      exact this
    nonzero := fun e he => by
      have := h.nonzero _ ((hmem e).1 he)
      exact this
    sorted_ok := fun _ hh => by cases hh
    indices_ok := fun _ hh => by cases hh }

/-- The matrix left when names are taken out. -/
def leftOver (pn fn : Bool) (c : Coo V) : Coo V :=
  let c1 := if pn then dropCol c else c
  if fn then dropRow c1 else c1

omit [Zero V] [DecidableEq V] in
theorem leftOver_shape (pn fn : Bool) (c : Coo V) :
    (leftOver pn fn c).rows = c.rows - off fn ∧ (leftOver pn fn c).cols = c.cols - off pn := by
  cases pn <;> cases fn <;> exact ⟨rfl, rfl⟩

theorem leftOver_spec {pn fn : Bool} {c : Coo V} (h : c.WF) (hp : pn = true → 0 < c.cols) (hf : fn = true → 0 < c.rows) :
    (leftOver pn fn c).WF ∧ (leftOver pn fn c).dense = restTable pn fn c := by
  have key : (leftOver pn fn c).WF ∧ ∀ i j, (leftOver pn fn c).at i j = c.at (i + off fn) (j + off pn) := by
    unfold leftOver
    cases pn with
    | false =>
      cases fn with
      | false => exact ⟨h, fun _ _ => rfl⟩
      | true => exact dropRow_spec h (hf rfl)
    | true =>
      obtain ⟨w1, a1⟩ := dropCol_spec h (hp rfl)
      cases fn with
      | false => exact ⟨w1, a1⟩
      | true =>
        obtain ⟨w2, a2⟩ := dropRow_spec w1 (hf rfl)
        exact ⟨w2, fun i j => (a2 i j).trans (a1 _ _)⟩
  refine ⟨key.1, ?_⟩
  obtain ⟨s1, s2⟩ := leftOver_shape pn fn c
  apply Coo.dense_ext
  · unfold restTable
    rw [List.length_map, List.length_drop, Coo.length_dense, s1]
  · intro r hr
    obtain ⟨r', hr', rfl⟩ := List.mem_map.1 hr
    rw [List.length_drop, Coo.row_dense (List.mem_of_mem_drop hr'), s2]
  · intro i j hi hj
    rw [s1] at hi
    rw [s2] at hj
    unfold restTable
    rw [List.getElem?_map, List.getElem?_drop, Coo.dense_getElem (by omega), Option.map_some, Option.bind_some,
      List.getElem?_drop, List.getElem?_map, List.getElem?_range (by omega), Option.map_some, key.2,
      Nat.add_comm i, Nat.add_comm j]

/-! ## The dictionaries -/

/-- The entries with point names. -/
theorem mem_idx {c : Coo V} (h : c.WF) (text : V → String) (i : Nat) (s : String) :
    (i, s) ∈ idxNames text c ↔ c.at i 0 ≠ 0 ∧ s = text (c.at i 0) := by
  have hnd : (((c.ents.filter (fun e => decide (e.col = 0))).map (fun e => (e.row, text e.val))).map Prod.fst).Nodup := by
    rw [List.map_map, List.nodup_map_iff_inj_on (List.Nodup.of_map _ h.nodup |>.filter _)]
    intro a ha b hb hab
    simp only [List.mem_filter, decide_eq_true_eq] at ha hb
    have : a.pos = b.pos := Prod.ext hab (ha.2.trans hb.2.symm)
    exact List.inj_on_of_nodup_map h.nodup ha.1 hb.1 this
  unfold idxNames
  rw [PyDict.ofPairs_nodup hnd]
  simp only [List.mem_map, List.mem_filter, decide_eq_true_eq, Prod.mk.injEq]
  constructor
  · rintro ⟨e, ⟨he, h0⟩, rfl, rfl⟩
    have := Coo.at_of_mem h.nodup he
    rw [h0] at this
    rw [this]
    exact ⟨h.nonzero e he, rfl⟩
  · rintro ⟨h0, rfl⟩
    exact ⟨⟨i, 0, c.at i 0⟩, ⟨(Coo.mem_iff_at h.toCore h0).2 rfl, rfl⟩, rfl, rfl⟩

theorem nodup_idx (text : V → String) (c : Coo V) : (PyDict.keys (idxNames text c)).Nodup := PyDict.nodup_ofPairs _

theorem has_idx {c : Coo V} (h : c.WF) (text : V → String) (i : Nat) :
    PyDict.has (idxNames text c) i = true ↔ c.at i 0 ≠ 0 := by
  rw [PyDict.has_iff]
  constructor
  · intro hk
    obtain ⟨⟨i', s⟩, hm, rfl⟩ := List.mem_map.1 hk
    exact ((mem_idx h text _ _).1 hm).1
  · intro h0
    exact List.mem_map.2 ⟨(i, text (c.at i 0)), (mem_idx h text _ _).2 ⟨h0, rfl⟩, rfl⟩

theorem at_lt {c : Coo V} (h : c.WF) {i j : Nat} (h0 : c.at i j ≠ 0) : i < c.rows ∧ j < c.cols := by
  have := (Coo.mem_iff_at h.toCore h0).2 rfl
  exact ⟨h.row_lt _ this, h.col_lt _ this⟩

/-- The pairs of an `ofPairs` are among those given. -/
theorem mem_of_ofPairs {A B : Type} [DecidableEq A] {l : List (A × B)} {p : A × B} (h : p ∈ PyDict.ofPairs l) : p ∈ l := by
  unfold PyDict.ofPairs at h
  have : ∀ (d : PyDict A B), p ∈ l.foldl (fun d p => PyDict.set d p.1 p.2) d → p ∈ d ∨ p ∈ l := by
    clear h
    induction l with
    | nil => intro d h; exact .inl h
    | cons q l ih =>
      intro d h
      rcases ih _ h with h | h
      · have : ∀ d : PyDict A B, p ∈ PyDict.set d q.1 q.2 → p ∈ d ∨ p = q := by
          intro d
          induction d with
          | nil => intro h; right; simpa [PyDict.set] using h
          | cons x d ihd =>
            intro h
            unfold PyDict.set at h
            split at h
            · next hx =>
              rcases List.mem_cons.1 h with h | h
              · right; rw [h]; exact Prod.ext hx rfl
              · left; exact List.mem_cons_of_mem _ h
            · rcases List.mem_cons.1 h with h | h
              · left; rw [h]; simp
              · rcases ihd h with h | h
                · left; exact List.mem_cons_of_mem _ h
                · right; exact h
        rcases this d h with h | h
        · exact .inl h
        · right; rw [h]; simp
      · right; exact List.mem_cons_of_mem _ h
  rcases this [] h with h | h
  · cases h
  · exact h

theorem ptNames_get (text : V → String) (fn : Bool) (c : Coo V) (i : Nat) (s : String) :
    (ptNames text fn c)[i]? = some s ↔ i + off fn < c.rows ∧ s = cellName text c (i + off fn) 0 := by
  unfold ptNames
  rw [List.getElem?_map]
  by_cases hi : i < c.rows - off fn
  · rw [List.getElem?_range hi]
    simp only [Option.map_some, Option.some.injEq]
    exact ⟨fun h => ⟨by omega, h.symm⟩, fun h => h.2.symm⟩
  · rw [List.getElem?_eq_none (by simpa using hi)]
    simp only [Option.map_none, reduceCtorEq, false_iff]
    omega

theorem ftNames_get (text : V → String) (pn : Bool) (c : Coo V) (j : Nat) (s : String) :
    (ftNames text pn c)[j]? = some s ↔ j + off pn < c.cols ∧ s = cellName text c 0 (j + off pn) := by
  unfold ftNames
  rw [List.getElem?_map]
  by_cases hi : j < c.cols - off pn
  · rw [List.getElem?_range hi]
    simp only [Option.map_some, Option.some.injEq]
    exact ⟨fun h => ⟨by omega, h.symm⟩, fun h => h.2.symm⟩
  · rw [List.getElem?_eq_none (by simpa using hi)]
    simp only [Option.map_none, reduceCtorEq, false_iff]
    omega

/-- Equal entries of a list without repetition are at the same place. -/
theorem nodup_get {A : Type} {l : List A} (h : l.Nodup) {i j : Nat} {a : A} (hi : l[i]? = some a) (hj : l[j]? = some a) :
    i = j := by
  obtain ⟨h1, e1⟩ := List.getElem?_eq_some_iff.1 hi
  obtain ⟨h2, e2⟩ := List.getElem?_eq_some_iff.1 hj
  exact (List.Nodup.getElem_inj_iff h).1 (e1.trans e2.symm)

/-- The dictionary of inverted pairs, when the names are different. -/
theorem mem_invert {l : List (Nat × String)} (hl : (l.map Prod.fst).Nodup) (f : Nat → Nat)
    (hinj : ∀ p ∈ l, ∀ q ∈ l, p.2 = q.2 → p.1 = q.1) (s : String) (k : Nat) :
    (s, k) ∈ PyDict.ofPairs (l.map (fun p => (p.2, f p.1))) ↔ ∃ i, (i, s) ∈ l ∧ k = f i := by
  have hnd : ((l.map (fun p => (p.2, f p.1))).map Prod.fst).Nodup := by
    rw [List.map_map, List.nodup_map_iff_inj_on (List.Nodup.of_map _ hl)]
    intro a ha b hb hab
    exact Prod.ext (hinj a ha b hb hab) hab
  rw [PyDict.ofPairs_nodup hnd, List.mem_map]
  constructor
  · rintro ⟨⟨i, s'⟩, hm, he⟩
    simp only [Prod.mk.injEq] at he
    obtain ⟨rfl, rfl⟩ := he
    exact ⟨i, hm, rfl⟩
  · rintro ⟨i, hm, rfl⟩
    exact ⟨_, hm, rfl⟩

theorem keys_invert (l : List (Nat × String)) (f : Nat → Nat) (s : String) :
    s ∈ PyDict.keys (PyDict.ofPairs (l.map (fun p => (p.2, f p.1)))) → ∃ i, (i, s) ∈ l := by
  intro h
  obtain ⟨⟨s', k⟩, hm, rfl⟩ := List.mem_map.1 h
  obtain ⟨⟨i, t⟩, hm', he⟩ := List.mem_map.1 (mem_of_ofPairs hm)
  simp only [Prod.mk.injEq] at he
  exact ⟨i, by rw [← he.1]; exact hm'⟩

/-- The points whose names are not stored. -/
theorem mem_missing {c : Coo V} (h : c.WF) (text : V → String) (i : Nat) :
    i ∈ (List.range c.rows).filter (fun i => !PyDict.has (idxNames text c) i) ↔ i < c.rows ∧ c.at i 0 = 0 := by
  have := has_idx h text i
  rw [List.mem_filter, List.mem_range]
  cases hb : PyDict.has (idxNames text c) i with
  | true => rw [hb] at this; simp [this.1 rfl]
  | false =>
    rw [hb] at this
    have h0 : c.at i 0 = 0 := by
      by_contra hc
      exact absurd (this.2 hc) (by simp)
    simp [h0]

theorem two_le {A : Type} {l : List A} (hn : l.Nodup) (h : 1 < l.length) : ∃ a ∈ l, ∃ b ∈ l, a ≠ b := by
  match l, hn, h with
  | a :: b :: l, hn, _ =>
    refine ⟨a, by simp, b, by simp, ?_⟩
    rintro rfl
    simp at hn

/-- If names are missing some point has none. -/
theorem exists_missing {c : Coo V} (h : c.WF) (text : V → String) (hl : (idxNames text c).length < c.rows) :
    ∃ m, m < c.rows ∧ c.at m 0 = 0 := by
  by_contra hno
  have hall : ∀ i, i < c.rows → c.at i 0 ≠ 0 := fun i hi h0 => hno ⟨i, hi, h0⟩
  have hsub : (List.range c.rows).Subperm (PyDict.keys (idxNames text c)) := by
    apply List.subperm_of_subset List.nodup_range
    intro i hi
    exact PyDict.has_iff.1 ((has_idx h text i).2 (hall i (by simpa using hi)))
  have := hsub.length_le
  unfold PyDict.keys at this
  rw [List.length_range, List.length_map] at this
  omega

theorem no_missing {c : Coo V} (h : c.WF) (text : V → String) (hl : ¬ (idxNames text c).length < c.rows) {i : Nat}
    (hi : i < c.rows) : c.at i 0 ≠ 0 := by
  intro h0
  have hsub : (PyDict.keys (idxNames text c)).Subperm ((List.range c.rows).filter (fun k => decide (k ≠ i))) := by
    apply List.subperm_of_subset (nodup_idx text c)
    intro k hk
    have hk' := (has_idx h text k).1 (PyDict.has_iff.2 hk)
    rw [List.mem_filter]
    refine ⟨by simpa using (at_lt h hk').1, ?_⟩
    rw [decide_eq_true_eq]
    rintro rfl
    exact hk' h0
  have h1 := hsub.length_le
  unfold PyDict.keys at h1
  rw [List.length_map] at h1
  have h2 : ((List.range c.rows).filter (fun k => decide (k ≠ i))).length < c.rows := by
    have := List.length_filter_lt_length_iff_exists (l := List.range c.rows) (p := fun k => decide (k ≠ i)) |>.2
      ⟨i, List.mem_range.2 hi, by simp⟩
    rwa [List.length_range] at this
  omega

theorem ptNames_stored {text : V → String} {c : Coo V} {i : Nat} (h0 : c.at i 0 ≠ 0) :
    cellName text c i 0 = text (c.at i 0) := by
  unfold cellName; rw [if_neg h0]

/-- The point names. -/
theorem pointDict_ok {text : V → String} {fn : Bool} {c : Coo V} (h : c.WF) (hn : (ptNames text fn c).Nodup)
    (hz : fn = true → ∀ i, 1 ≤ i → i < c.rows → c.at i 0 ≠ 0) :
    ∃ d, pointDict text fn c = .ok d ∧ (PyDict.keys d).Nodup ∧
      ∀ (s : String) (i : Nat), (s, i) ∈ d ↔ (ptNames text fn c)[i]? = some s := by
  have hfst := nodup_idx text c
  have hget : ∀ i, i + off fn < c.rows → c.at (i + off fn) 0 ≠ 0 →
      (ptNames text fn c)[i]? = some (text (c.at (i + off fn) 0)) := by
    intro i hi h0
    exact (ptNames_get text fn c i _).2 ⟨hi, (ptNames_stored h0).symm⟩
  unfold pointDict
  dsimp only
  cases fn with
  | true =>
    rw [if_neg (by simp)]
    refine ⟨_, rfl, PyDict.nodup_ofPairs _, ?_⟩
    intro s k
    unfold plainPoints
    rw [if_pos rfl]
    have hmem : ∀ (i : Nat) (s : String), (i, s) ∈ PyDict.del (idxNames text c) 0 ↔
        i ≠ 0 ∧ c.at i 0 ≠ 0 ∧ s = text (c.at i 0) := by
      intro i s
      unfold PyDict.del
      rw [List.mem_filter, mem_idx h]
      simp [and_comm]
    rw [mem_invert (PyDict.nodup_del hfst 0) (fun i => i - 1), ptNames_get]
    · constructor
      · rintro ⟨i, hm, rfl⟩
        obtain ⟨h1, h2, rfl⟩ := (hmem i s).1 hm
        have hi : i - 1 + off true = i := by unfold off; simp only [if_true]; omega
        rw [hi]
        exact ⟨(at_lt h h2).1, (ptNames_stored h2).symm⟩
      · rintro ⟨h1, rfl⟩
        have h2 := hz rfl (k + 1) (by omega) h1
        exact ⟨k + 1, (hmem _ _).2 ⟨by omega, h2, ptNames_stored h2⟩, by omega⟩
    · rintro ⟨i, s⟩ hp ⟨j, t⟩ hq he
      obtain ⟨i1, i2, i3⟩ := (hmem i s).1 hp
      obtain ⟨j1, j2, j3⟩ := (hmem j t).1 hq
      simp only at he ⊢
      have hi : i - 1 + off true = i := by unfold off; simp only [if_true]; omega
      have hj : j - 1 + off true = j := by unfold off; simp only [if_true]; omega
      have e1 := hget (i - 1) (by rw [hi]; exact (at_lt h i2).1) (by rw [hi]; exact i2)
      have e2 := hget (j - 1) (by rw [hj]; exact (at_lt h j2).1) (by rw [hj]; exact j2)
      rw [hi, ← i3] at e1
      rw [hj, ← j3, ← he] at e2
      have := nodup_get hn e1 e2
      omega
  | false =>
    have hinj : ∀ p ∈ idxNames text c, ∀ q ∈ idxNames text c, p.2 = q.2 → p.1 = q.1 := by
      rintro ⟨i, s⟩ hp ⟨j, t⟩ hq he
      obtain ⟨i2, i3⟩ := (mem_idx h text i s).1 hp
      obtain ⟨j2, j3⟩ := (mem_idx h text j t).1 hq
      simp only at he ⊢
      have e1 := hget i (at_lt h i2).1 i2
      have e2 := hget j (at_lt h j2).1 j2
      refine nodup_get hn e1 ?_
      rw [e2]
      exact congrArg some (j3.symm.trans (he.symm.trans i3))
    have hinv : ∀ (s : String) (k : Nat), (s, k) ∈ invert (idxNames text c) ↔ c.at k 0 ≠ 0 ∧ s = text (c.at k 0) := by
      intro s k
      unfold invert
      rw [mem_invert hfst (fun i => i) hinj]
      constructor
      · rintro ⟨i, hm, rfl⟩; exact (mem_idx h text _ _).1 hm
      · intro hm; exact ⟨k, (mem_idx h text _ _).2 hm, rfl⟩
    by_cases hl : (idxNames text c).length < c.rows
    · rw [if_pos ⟨rfl, hl⟩]
      obtain ⟨m, hm, hm0⟩ := exists_missing h text hl
      have huniq : ∀ i, i < c.rows → c.at i 0 = 0 → i = m := by
        intro i hi h0
        refine nodup_get hn (a := "0") ?_ ?_
        · exact (ptNames_get text false c i _).2 ⟨hi, by unfold cellName; exact (if_pos h0).symm⟩
        · exact (ptNames_get text false c m _).2 ⟨hm, by unfold cellName; exact (if_pos hm0).symm⟩
      have hmiss : (List.range c.rows).filter (fun i => !PyDict.has (idxNames text c) i) = [m] := by
        have hnd : ((List.range c.rows).filter (fun i => !PyDict.has (idxNames text c) i)).Nodup :=
          List.nodup_range.filter _
        have hmm := (mem_missing h text m).2 ⟨hm, hm0⟩
        cases hq : (List.range c.rows).filter (fun i => !PyDict.has (idxNames text c) i) with
        | nil => rw [hq] at hmm; cases hmm
        | cons a r =>
          rw [hq] at hnd
          have ha : a = m := by
            have := (mem_missing h text a).1 (by rw [hq]; simp)
            exact huniq a this.1 this.2
          cases r with
          | nil => rw [ha]
          | cons b r =>
            have hb : b = m := by
              have := (mem_missing h text b).1 (by rw [hq]; simp)
              exact huniq b this.1 this.2
            rw [ha, hb] at hnd
            simp at hnd
      rw [hmiss, if_neg (by simp)]
      refine ⟨_, rfl, PyDict.nodup_set (PyDict.nodup_ofPairs _) _ _, ?_⟩
      have hk : "0" ∉ PyDict.keys (invert (idxNames text c)) := by
        intro hc
        obtain ⟨⟨s, k⟩, hmem, he⟩ := List.mem_map.1 hc
        obtain ⟨k1, k2⟩ := (hinv s k).1 hmem
        simp only at he
        subst he
        have e1 := hget k (at_lt h k1).1 k1
        rw [show k + off false = k from rfl, ← k2] at e1
        have e2 := (ptNames_get text false c m "0").2 ⟨hm, by unfold cellName; exact (if_pos hm0).symm⟩
        have := nodup_get hn e1 e2
        subst this
        exact k1 hm0
      intro s k
      rw [PyDict.set_of_not_mem hk, List.mem_append, hinv, List.mem_singleton, ptNames_get]
      show _ ↔ k < c.rows ∧ s = cellName text c k 0
      constructor
      · rintro (⟨h1, rfl⟩ | he)
        · exact ⟨(at_lt h h1).1, (ptNames_stored h1).symm⟩
        · cases he
          exact ⟨hm, by unfold cellName; exact (if_pos hm0).symm⟩
      · rintro ⟨h1, rfl⟩
        by_cases h0 : c.at k 0 = 0
        · right
          rw [huniq k h1 h0]
          unfold cellName
          rw [if_pos hm0]
          rfl
        · left
          exact ⟨h0, ptNames_stored h0⟩
    · rw [if_neg (fun hc => hl hc.2)]
      refine ⟨_, rfl, PyDict.nodup_ofPairs _, ?_⟩
      intro s k
      show (s, k) ∈ invert (idxNames text c) ↔ _
      rw [hinv, ptNames_get]
      show _ ↔ k < c.rows ∧ s = cellName text c k 0
      constructor
      · rintro ⟨h1, rfl⟩
        exact ⟨(at_lt h h1).1, (ptNames_stored h1).symm⟩
      · rintro ⟨h1, rfl⟩
        have h0 := no_missing h text hl h1
        exact ⟨h0, ptNames_stored h0⟩

/-- In any case the names in the dictionary are names in the column. -/
theorem pointDict_keys {text : V → String} {fn : Bool} {c : Coo V} (h : c.WF) {d : PyDict String Nat}
    (hd : pointDict text fn c = .ok d) : (PyDict.keys d).Nodup ∧ ∀ s ∈ PyDict.keys d, s ∈ ptNames text fn c := by
  have hmem : ∀ (s : String) (i : Nat), i + off fn < c.rows → s = cellName text c (i + off fn) 0 →
      s ∈ ptNames text fn c := by
    intro s i hi hs
    exact List.mem_of_getElem? ((ptNames_get text fn c i s).2 ⟨hi, hs⟩)
  unfold pointDict at hd
  dsimp only at hd
  split at hd
  · next hc =>
    obtain ⟨rfl, hl⟩ := hc
    split at hd
    · cases hd
    · cases hd
      refine ⟨PyDict.nodup_set (PyDict.nodup_ofPairs _) _ _, ?_⟩
      intro s hs
      rcases PyDict.mem_keys_set.1 hs with rfl | hs
      · obtain ⟨m, hm, hm0⟩ := exists_missing h text hl
        exact hmem "0" m hm (by unfold cellName; exact (if_pos hm0).symm)
      · obtain ⟨i, hi⟩ := keys_invert (idxNames text c) (fun i => i) s hs
        obtain ⟨h1, rfl⟩ := (mem_idx h text i s).1 hi
        exact hmem _ i (at_lt h h1).1 (ptNames_stored h1).symm
  · cases hd
    unfold plainPoints
    cases fn with
    | false =>
      refine ⟨PyDict.nodup_ofPairs _, ?_⟩
      intro s hs
      obtain ⟨i, hi⟩ := keys_invert (idxNames text c) (fun i => i) s hs
      obtain ⟨h1, rfl⟩ := (mem_idx h text i s).1 hi
      exact hmem _ i (at_lt h h1).1 (ptNames_stored h1).symm
    | true =>
      refine ⟨PyDict.nodup_ofPairs _, ?_⟩
      intro s hs
      obtain ⟨i, hi⟩ := keys_invert (PyDict.del (idxNames text c) 0) (fun i => i - 1) s hs
      unfold PyDict.del at hi
      rw [List.mem_filter, mem_idx h] at hi
      obtain ⟨⟨h1, rfl⟩, h0⟩ := hi
      have hi0 : i ≠ 0 := by simpa using h0
      have hi : i - 1 + off true = i := by unfold off; simp only [if_true]; omega
      exact hmem _ (i - 1) (by rw [hi]; exact (at_lt h h1).1) (by rw [hi]; exact (ptNames_stored h1).symm)

/-! ### Features -/

/-- The dictionary of the stored feature names. -/
def storedFts (text : V → String) (c : Coo V) : PyDict String Nat :=
  PyDict.ofPairs ((c.ents.filter (fun e => decide (e.row = 0))).map (fun e => (text e.val, e.col)))

theorem mem_storedFts {text : V → String} {c : Coo V} (h : c.WF) {s : String} {j : Nat}
    (hm : (s, j) ∈ storedFts text c) : c.at 0 j ≠ 0 ∧ s = text (c.at 0 j) := by
  obtain ⟨e, he, hq⟩ := List.mem_map.1 (mem_of_ofPairs hm)
  simp only [List.mem_filter, decide_eq_true_eq] at he
  simp only [Prod.mk.injEq] at hq
  obtain ⟨rfl, rfl⟩ := hq
  have := Coo.at_of_mem h.nodup he.1
  rw [he.2] at this
  rw [this]
  exact ⟨h.nonzero e he.1, rfl⟩

theorem key_storedFts {text : V → String} {c : Coo V} (h : c.WF) {j : Nat} (h0 : c.at 0 j ≠ 0) :
    ∃ j', (text (c.at 0 j), j') ∈ storedFts text c := by
  have : text (c.at 0 j) ∈ PyDict.keys (storedFts text c) := by
    unfold storedFts
    rw [keys_ofPairs_mem]
    refine List.mem_map.2 ⟨(text (c.at 0 j), j), List.mem_map.2 ⟨⟨0, j, c.at 0 j⟩, ?_, rfl⟩, rfl⟩
    rw [List.mem_filter]
    exact ⟨(Coo.mem_iff_at h.toCore h0).2 rfl, by simp⟩
  obtain ⟨⟨s, j'⟩, hm, he⟩ := List.mem_map.1 this
  simp only at he
  subst he
  exact ⟨j', hm⟩

theorem keys_nodup_storedFts (text : V → String) (c : Coo V) : (PyDict.keys (storedFts text c)).Nodup :=
  PyDict.nodup_ofPairs _

/-- The features whose names are not in the dictionary. -/
def missingFts (text : V → String) (c : Coo V) : List Nat :=
  (List.range c.cols).filter (fun j => decide (j ∉ PyDict.values (storedFts text c)))

theorem missing_length {text : V → String} {c : Coo V} (h : c.WF) :
    (missingFts text c).length + (storedFts text c).length = c.cols := by
  have hvn : (PyDict.values (storedFts text c)).Nodup := by
    unfold PyDict.values
    rw [List.nodup_map_iff_inj_on (List.Nodup.of_map _ (keys_nodup_storedFts text c))]
    rintro ⟨s, j⟩ hp ⟨t, j'⟩ hq (rfl : j = j')
    rw [(mem_storedFts h hp).2, (mem_storedFts h hq).2]
  have hperm : (PyDict.values (storedFts text c)).Perm
      ((List.range c.cols).filter (fun j => decide (j ∈ PyDict.values (storedFts text c)))) := by
    rw [List.perm_ext_iff_of_nodup hvn (List.nodup_range.filter _)]
    intro j
    rw [List.mem_filter, List.mem_range, decide_eq_true_eq]
    constructor
    · intro hj
      refine ⟨?_, hj⟩
      obtain ⟨⟨s, j'⟩, hm, rfl⟩ := List.mem_map.1 hj
      exact (at_lt h (mem_storedFts h hm).1).2
    · exact fun hj => hj.2
  have h1 := hperm.length_eq
  unfold PyDict.values at h1
  rw [List.length_map] at h1
  have h2 := List.length_eq_length_filter_add (l := List.range c.cols)
    (fun j => decide (j ∈ PyDict.values (storedFts text c)))
  rw [List.length_range] at h2
  unfold PyDict.values at h2
  have h3 : missingFts text c = (List.range c.cols).filter
      (fun j => !decide (j ∈ List.map Prod.snd (storedFts text c))) := by
    unfold missingFts PyDict.values
    apply List.filter_congr
    intro j _
    simp
  rw [h3]
  omega

theorem mem_missingFts {text : V → String} {c : Coo V} {j : Nat} :
    j ∈ missingFts text c ↔ j < c.cols ∧ j ∉ PyDict.values (storedFts text c) := by
  unfold missingFts
  rw [List.mem_filter, List.mem_range, decide_eq_true_eq]

theorem featureDict_eq (text : V → String) (c : Coo V) : featureDict text c =
    if (storedFts text c).length < c.cols then
      if 1 < (missingFts text c).length then .error .InvalidArgumentValue
      else .ok (PyDict.set (storedFts text c) "0" ((missingFts text c).headD 0))
    else .ok (storedFts text c) := rfl

/-- One feature without a name gets the name `'0'`. -/
theorem mem_setZero {D : PyDict String Nat} {l : List String} {k : Nat} (hl : k < l.length)
    (hD : ∀ (s : String) (j : Nat), (s, j) ∈ D → l[j]? = some s)
    (hv : ∀ j, j < l.length → j ≠ k → j ∈ PyDict.values D) (hk : k ∉ PyDict.values D) (h0 : "0" ∉ PyDict.keys D)
    (s : String) (j : Nat) : (s, j) ∈ PyDict.set D "0" k ↔ (l.set k "0")[j]? = some s := by
  rw [PyDict.set_of_not_mem h0, List.mem_append, List.mem_singleton]
  constructor
  · rintro (hm | he)
    · have hjk : k ≠ j := by
        rintro rfl
        exact hk (List.mem_map.2 ⟨_, hm, rfl⟩)
      rw [List.getElem?_set_ne hjk]
      exact hD s j hm
    · cases he
      rw [List.getElem?_set_self hl]
  · intro hs
    by_cases hjk : j = k
    · subst hjk
      rw [List.getElem?_set_self hl] at hs
      cases hs
      exact .inr rfl
    · left
      rw [List.getElem?_set_ne (Ne.symm hjk)] at hs
      obtain ⟨hj, _⟩ := List.getElem?_eq_some_iff.1 hs
      obtain ⟨⟨t, j'⟩, hm, rfl⟩ := List.mem_map.1 (hv j hj hjk)
      have := hD t j' hm
      simp only at hs
      rw [this] at hs
      cases hs
      exact hm

theorem length_ftNames (text : V → String) (pn : Bool) (c : Coo V) : (ftNames text pn c).length = c.cols - off pn := by
  unfold ftNames
  simp

theorem stored_get {text : V → String} {c : Coo V} (h : c.WF) {s : String} {j : Nat} (hm : (s, j) ∈ storedFts text c) :
    (ftNames text false c)[j]? = some s := by
  obtain ⟨h1, h2⟩ := mem_storedFts h hm
  refine (ftNames_get text false c j s).2 ⟨(at_lt h h1).2, ?_⟩
  rw [h2]
  show _ = cellName text c 0 j
  unfold cellName
  rw [if_neg h1]

theorem nonzero_get {text : V → String} {c : Coo V} (h : c.WF) {j : Nat} (h0 : c.at 0 j ≠ 0) :
    (ftNames text false c)[j]? = some (text (c.at 0 j)) := by
  refine (ftNames_get text false c j _).2 ⟨(at_lt h h0).2, ?_⟩
  show _ = cellName text c 0 j
  unfold cellName
  rw [if_neg h0]

theorem zero_get {text : V → String} {c : Coo V} {j : Nat} (hj : j < c.cols) (h0 : c.at 0 j = 0) :
    (ftNames text false c)[j]? = some "0" := by
  refine (ftNames_get text false c j _).2 ⟨hj, ?_⟩
  show _ = cellName text c 0 j
  unfold cellName
  rw [if_pos h0]

/-- The feature names, when they are different. -/
theorem featureDict_ok {text : V → String} {c : Coo V} (h : c.WF) (hn : (ftNames text false c).Nodup) :
    ∃ d, featureDict text c = .ok d ∧ (PyDict.keys d).Nodup ∧
      ∀ (s : String) (j : Nat), (s, j) ∈ d ↔ (ftNames text false c)[j]? = some s := by
  have hval : ∀ j, c.at 0 j ≠ 0 → j ∈ PyDict.values (storedFts text c) := by
    intro j h0
    obtain ⟨j', hm⟩ := key_storedFts (text := text) h h0
    have := nodup_get hn (stored_get h hm) (nonzero_get h h0)
    subst this
    exact List.mem_map.2 ⟨_, hm, rfl⟩
  have hzero : ∀ j, j ∈ missingFts text c → c.at 0 j = 0 := by
    intro j hj
    by_contra h0
    exact (mem_missingFts.1 hj).2 (hval j h0)
  have hlen := missing_length (text := text) h
  have hl0 : (ftNames text false c).length = c.cols := length_ftNames text false c
  rw [featureDict_eq]
  by_cases hl : (storedFts text c).length < c.cols
  · rw [if_pos hl]
    obtain ⟨k, hk⟩ : ∃ k, missingFts text c = [k] := by
      have hnd : (missingFts text c).Nodup := List.nodup_range.filter _
      cases hq : missingFts text c with
      | nil => rw [hq] at hlen; simp at hlen; omega
      | cons a r =>
        cases r with
        | nil => exact ⟨a, rfl⟩
        | cons b r =>
          have ha := hzero a (by rw [hq]; simp)
          have hb := hzero b (by rw [hq]; simp)
          have ha' := (mem_missingFts (text := text) (c := c) (j := a)).1 (by rw [hq]; simp)
          have hb' := (mem_missingFts (text := text) (c := c) (j := b)).1 (by rw [hq]; simp)
          have := nodup_get hn (zero_get ha'.1 ha) (zero_get hb'.1 hb)
          rw [hq, this] at hnd
          simp at hnd
    have hkm := mem_missingFts.1 (show k ∈ missingFts text c by rw [hk]; simp)
    have hk0 := hzero k (by rw [hk]; simp)
    have hkz := zero_get (text := text) hkm.1 hk0
    rw [hk, if_neg (by simp)]
    refine ⟨_, rfl, PyDict.nodup_set (keys_nodup_storedFts text c) _ _, ?_⟩
    intro s j
    rw [show ([k].headD 0) = k from rfl, mem_setZero (l := ftNames text false c) (by rw [hl0]; exact hkm.1)
      (fun s j hm => stored_get h hm) (by
        intro j hj hjk
        by_contra hc
        have : j ∈ missingFts text c := mem_missingFts.2 ⟨by rw [hl0] at hj; exact hj, hc⟩
        rw [hk] at this
        exact hjk (by simpa using this)) hkm.2 (by
        intro hc
        obtain ⟨⟨t, j'⟩, hm, he⟩ := List.mem_map.1 hc
        simp only at he
        subst he
        have := nodup_get hn (stored_get h hm) hkz
        subst this
        exact (mem_storedFts h hm).1 hk0)]
    have : (ftNames text false c).set k "0" = ftNames text false c := by
      obtain ⟨h1, h2⟩ := List.getElem?_eq_some_iff.1 hkz
      rw [← h2]
      exact List.set_getElem_self h1
    rw [this]
  · rw [if_neg hl]
    refine ⟨_, rfl, keys_nodup_storedFts text c, ?_⟩
    intro s j
    constructor
    · exact stored_get h
    · intro hs
      have hj := ((ftNames_get text false c j s).1 hs).1
      have hm : missingFts text c = [] := List.length_eq_zero_iff.1 (by omega)
      have hv : j ∈ PyDict.values (storedFts text c) := by
        by_contra hc
        have : j ∈ missingFts text c := mem_missingFts.2 ⟨hj, hc⟩
        rw [hm] at this
        cases this
      obtain ⟨⟨t, j'⟩, hm', rfl⟩ := List.mem_map.1 hv
      have := stored_get h hm'
      simp only at hs
      rw [hs] at this
      cases this
      exact hm'

/-- One name occurring twice: the dictionary is as long as it should be. -/
theorem featureDict_twice {text : V → String} {c : Coo V} (h : c.WF) (hz : ∀ j, j < c.cols → c.at 0 j ≠ 0)
    (h0 : "0" ∉ ftNames text false c) {i j : Nat} {s : String} (hij : i ≠ j) (hi : (ftNames text false c)[i]? = some s)
    (hj : (ftNames text false c)[j]? = some s) (hn : ((ftNames text false c).eraseIdx i).Nodup) :
    ∃ k d, (k = i ∨ k = j) ∧ featureDict text c = .ok d ∧ (PyDict.keys d).Nodup ∧
      ∀ (t : String) (m : Nat), (t, m) ∈ d ↔ ((ftNames text false c).set k "0")[m]? = some t := by
  have hl0 : (ftNames text false c).length = c.cols := length_ftNames text false c
  have hlen := missing_length (text := text) h
  have hiL : i < c.cols := by
    obtain ⟨h1, _⟩ := List.getElem?_eq_some_iff.1 hi
    omega
  -- the number of different names
  have hkeys : ∀ t, t ∈ PyDict.keys (storedFts text c) ↔ t ∈ (ftNames text false c).eraseIdx i := by
    intro t
    rw [List.mem_eraseIdx_iff_getElem?]
    constructor
    · intro ht
      obtain ⟨⟨t', m⟩, hm, rfl⟩ := List.mem_map.1 ht
      have hg := stored_get h hm
      by_cases hmi : m = i
      · subst hmi
        simp only
        rw [hi] at hg
        cases hg
        exact ⟨j, Ne.symm hij, hj⟩
      · exact ⟨m, hmi, hg⟩
    · rintro ⟨m, hmi, hg⟩
      obtain ⟨hm, rfl⟩ := (ftNames_get text false c m t).1 hg
      have hz' := hz m hm
      obtain ⟨j', hm'⟩ := key_storedFts (text := text) h hz'
      refine List.mem_map.2 ⟨_, hm', ?_⟩
      show text (c.at 0 m) = cellName text c 0 m
      unfold cellName
      rw [if_neg hz']
  have hperm := (List.perm_ext_iff_of_nodup (keys_nodup_storedFts text c) hn).2 hkeys
  have hD : (storedFts text c).length = c.cols - 1 := by
    have := hperm.length_eq
    unfold PyDict.keys at this
    rw [List.length_map, List.length_eraseIdx, if_pos (by omega), hl0] at this
    exact this
  have hm1 : (missingFts text c).length = 1 := by omega
  obtain ⟨k, hk⟩ := List.length_eq_one_iff.1 hm1
  have hkm := mem_missingFts.1 (show k ∈ missingFts text c by rw [hk]; simp)
  have hvals : ∀ m, m < c.cols → m ≠ k → m ∈ PyDict.values (storedFts text c) := by
    intro m hm hmk
    by_contra hc
    have : m ∈ missingFts text c := mem_missingFts.2 ⟨hm, hc⟩
    rw [hk] at this
    exact hmk (by simpa using this)
  have hkij : k = i ∨ k = j := by
    by_contra hc
    have hki : k ≠ i := fun hh => hc (.inl hh)
    have hkj : k ≠ j := fun hh => hc (.inr hh)
    have hg := nonzero_get (text := text) h (hz k hkm.1)
    obtain ⟨k', hm'⟩ := key_storedFts (text := text) h (hz k hkm.1)
    have hg' := stored_get h hm'
    have hkk : k' ≠ k := by
      rintro rfl
      exact hkm.2 (List.mem_map.2 ⟨_, hm', rfl⟩)
    -- two places with the same name, at least one of which is not `i`
    have herase : ∀ (m : Nat) (t : String), m ≠ i → (ftNames text false c)[m]? = some t →
        ((ftNames text false c).eraseIdx i)[if m < i then m else m - 1]? = some t := by
      intro m t hmi hg
      rw [List.getElem?_eraseIdx]
      split
      · exact hg
      · next hge =>
        rw [if_neg (by omega), show m - 1 + 1 = m by omega]; exact hg
    by_cases hk'i : k' = i
    · subst hk'i
      have e1 := herase k _ hki hg
      have e2 : (ftNames text false c)[j]? = some (text (c.at 0 k)) := by rw [hj, ← hi, hg']
      have e3 := herase j _ (Ne.symm hij) e2
      have := nodup_get hn e1 e3
      split at this <;> split at this <;> omega
    · have := nodup_get hn (herase k _ hki hg) (herase k' _ hk'i hg')
      split at this <;> split at this <;> omega
  refine ⟨k, PyDict.set (storedFts text c) "0" k, hkij, ?_, PyDict.nodup_set (keys_nodup_storedFts text c) _ _, ?_⟩
  · rw [featureDict_eq, if_pos (by omega), hk, if_neg (by simp)]
    rfl
  · intro t m
    refine mem_setZero (by rw [hl0]; exact hkm.1) (fun s j hm => stored_get h hm)
      (fun m hm => hvals m (by rw [hl0] at hm; exact hm)) hkm.2 ?_ t m
    intro hc
    obtain ⟨⟨t, j'⟩, hm, he⟩ := List.mem_map.1 hc
    simp only at he
    subst he
    exact h0 (List.mem_of_getElem? (stored_get h hm))

/-! ## Theorems -/

/-- The matrix of which the feature names are taken. -/
def afterPoints (pn : Bool) (c : Coo V) : Coo V := if pn then dropCol c else c

theorem ftNames_after {text : V → String} {pn : Bool} {c : Coo V} (h : c.WF) (hp : pn = true → 0 < c.cols) :
    (afterPoints pn c).WF ∧ ftNames text false (afterPoints pn c) = ftNames text pn c ∧
      ∀ i j, (afterPoints pn c).at i j = c.at i (j + off pn) := by
  unfold afterPoints
  cases pn with
  | false => exact ⟨h, rfl, fun _ _ => rfl⟩
  | true =>
    obtain ⟨w, a⟩ := dropCol_spec h (hp rfl)
    refine ⟨w, ?_, a⟩
    unfold ftNames
    show (List.range (c.cols - 1)).map (fun j => cellName text (dropCol c) 0 j) =
      (List.range (c.cols - 1)).map (fun j => cellName text c 0 (j + 1))
    apply List.map_congr_left
    intro j _
    unfold cellName
    rw [a]

/-- The result, given the dictionaries. -/
theorem sparseData_eq {text : V → String} {pn fn : Bool} {c : Coo V} (hp : pn = true → 0 < c.cols)
    (hf : fn = true → 0 < c.rows) {dp df : PyDict String Nat} (h1 : pn = true → pointDict text fn c = .ok dp)
    (h2 : fn = true → featureDict text (afterPoints pn c) = .ok df) :
    sparseData text pn fn c = (do
      let pts ← axisOf (c.rows - off fn) (if pn then some dp else none)
      let fts ← axisOf (c.cols - off pn) (if fn then some df else none)
      return ⟨leftOver pn fn c, pts, fts⟩) := by
  have hs : ¬ ((pn = true ∧ c.cols = 0) ∨ (fn = true ∧ c.rows = 0)) := by
    rintro (⟨a, b⟩ | ⟨a, b⟩)
    · have := hp a; omega
    · have := hf a; omega
  have e1 : pointStep text pn fn c = .ok (if pn then some dp else none, afterPoints pn c) := by
    unfold pointStep afterPoints
    cases pn with
    | false => rfl
    | true => rw [if_pos rfl, h1 rfl]; rfl
  have e2 : featureStep text fn (afterPoints pn c) = .ok (if fn then some df else none, leftOver pn fn c) := by
    unfold featureStep leftOver
    cases fn with
    | false => cases pn <;> rfl
    | true => rw [if_pos rfl, h2 rfl]; cases pn <;> rfl
  obtain ⟨s1, s2⟩ := leftOver_shape pn fn c
  unfold sparseData
  simp only [bind, Except.bind, e1, e2, pure, Except.pure]
  rw [if_neg hs, s1, s2]

theorem axisOf_none (n : Nat) : ∃ a, axisOf n none = .ok a ∧ a.len = n ∧ NamesConsistent a ∧
    a.getNames = List.replicate n none :=
  ⟨⟨n, none⟩, rfl, rfl, (none_ok n).consistent, rfl⟩

/-- **C99 (names and table).**  `nimble.data` of a sparse matrix with point names in the first column and/or feature names
in the first row: when the names are different - and, if both are taken, no point has the name zero - the object has
exactly these names, in the order of the matrix, and exactly the rest of the table. -/
theorem C99_names_partial {text : V → String} {pn fn : Bool} {c : Coo V} (h : c.WF) (hp : pn = true → 0 < c.cols)
    (hf : fn = true → 0 < c.rows) (hpn : pn = true → (ptNames text fn c).Nodup)
    (hfn : fn = true → (ftNames text pn c).Nodup)
    (hz : pn = true → fn = true → ∀ i, 1 ≤ i → i < c.rows → c.at i 0 ≠ 0) :
    ∃ o, sparseData text pn fn c = .ok o ∧ HoldsSp o (restTable pn fn c)
      (namesOr pn (c.rows - off fn) (ptNames text fn c)) (namesOr fn (c.cols - off pn) (ftNames text pn c)) := by
  obtain ⟨w, e, _⟩ := ftNames_after (text := text) h hp
  have hlp : (ptNames text fn c).length = c.rows - off fn := by unfold ptNames; simp
  have hlf := length_ftNames text pn c
  obtain ⟨dp, pp⟩ : ∃ dp, pn = true → pointDict text fn c = .ok dp ∧ (PyDict.keys dp).Nodup ∧
      ∀ (s : String) (i : Nat), (s, i) ∈ dp ↔ (ptNames text fn c)[i]? = some s := by
    cases pn with
    | false => exact ⟨[], fun h => by cases h⟩
    | true =>
      obtain ⟨d, hd⟩ := pointDict_ok h (hpn rfl) (hz rfl)
      exact ⟨d, fun _ => hd⟩
  obtain ⟨df, pf⟩ : ∃ df, fn = true → featureDict text (afterPoints pn c) = .ok df ∧ (PyDict.keys df).Nodup ∧
      ∀ (s : String) (i : Nat), (s, i) ∈ df ↔ (ftNames text pn c)[i]? = some s := by
    cases fn with
    | false => exact ⟨[], fun h => by cases h⟩
    | true =>
      obtain ⟨d, hd⟩ := featureDict_ok (text := text) w (by rw [e]; exact hfn rfl)
      rw [e] at hd
      exact ⟨d, fun _ => hd⟩
  have ap : ∃ a, axisOf (c.rows - off fn) (if pn then some dp else none) = .ok a ∧ a.len = c.rows - off fn ∧
      NamesConsistent a ∧ a.getNames = namesOr pn (c.rows - off fn) (ptNames text fn c) := by
    unfold namesOr
    cases pn with
    | false => exact axisOf_none _
    | true => exact axisOf_ok hlp (pp rfl).2.1 (pp rfl).2.2
  have af : ∃ a, axisOf (c.cols - off pn) (if fn then some df else none) = .ok a ∧ a.len = c.cols - off pn ∧
      NamesConsistent a ∧ a.getNames = namesOr fn (c.cols - off pn) (ftNames text pn c) := by
    unfold namesOr
    cases fn with
    | false => exact axisOf_none _
    | true => exact axisOf_ok hlf (pf rfl).2.1 (pf rfl).2.2
  obtain ⟨a, a1, a2, a3, a4⟩ := ap
  obtain ⟨b, b1, b2, b3, b4⟩ := af
  obtain ⟨s1, s2⟩ := leftOver_shape pn fn c
  obtain ⟨l1, l2⟩ := leftOver_spec (pn := pn) (fn := fn) h hp hf
  refine ⟨⟨leftOver pn fn c, a, b⟩, ?_, ⟨l1, l2, a2.trans s1.symm, b2.trans s2.symm, a3, b3, a4, b4⟩⟩
  rw [sparseData_eq hp hf (fun h => (pp h).1) (fun h => (pf h).1), a1, b1]
  rfl

theorem pointDict_error {text : V → String} {fn : Bool} {c : Coo V} {e : Err} (h : pointDict text fn c = .error e) :
    e = .InvalidArgumentValue := by
  unfold pointDict at h
  dsimp only at h
  split at h
  · split at h
    · cases h; rfl
    · cases h
  · cases h

theorem featureDict_error {text : V → String} {c : Coo V} {e : Err} (h : featureDict text c = .error e) :
    e = .InvalidArgumentValue := by
  rw [featureDict_eq] at h
  split at h
  · split at h
    · cases h; rfl
    · cases h
  · cases h

/-- A refusal of the point names is the result. -/
theorem sparseData_points_refused {text : V → String} {fn : Bool} {c : Coo V} (hp : 0 < c.cols)
    (hf : fn = true → 0 < c.rows)
    (h : ∀ d, pointDict text fn c = .ok d → axisOf (c.rows - off fn) (some d) = .error .InvalidArgumentValue) :
    sparseData text true fn c = .error .InvalidArgumentValue := by
  cases hd : pointDict text fn c with
  | error e =>
    unfold sparseData pointStep
    rw [if_pos rfl, hd, pointDict_error hd]
    rfl
  | ok d =>
    cases fn with
    | false =>
      rw [sparseData_eq (dp := d) (df := []) (fun _ => hp) hf (fun _ => hd) (fun h => by cases h), if_pos rfl, h d hd]
      rfl
    | true =>
      cases hfd : featureDict text (afterPoints true c) with
      | error e =>
        unfold sparseData pointStep featureStep
        simp only [bind, Except.bind, pure, Except.pure, hd, if_true]
        rw [show dropCol c = afterPoints true c from rfl, hfd, featureDict_error hfd]
      | ok df =>
        rw [sparseData_eq (dp := d) (df := df) (fun _ => hp) hf (fun _ => hd) (fun _ => hfd), if_pos rfl, h d hd]
        rfl

/-- **C99 (points).**  Point names which are not different are refused. -/
theorem C99_point_duplicate_refused {text : V → String} {fn : Bool} {c : Coo V} (h : c.WF) (hp : 0 < c.cols)
    (hf : fn = true → 0 < c.rows) (hn : ¬ (ptNames text fn c).Nodup) :
    sparseData text true fn c = .error .InvalidArgumentValue :=
  sparseData_points_refused hp hf (fun d hd => by
    obtain ⟨h1, h2⟩ := pointDict_keys h hd
    exact axisOf_refused (by unfold ptNames; simp) h1 h2 hn)

/-- **C99 (violation, a point named zero).**  When point and feature names are taken out and a point has the name zero
the matrix is refused, although all names are different. -/
theorem C99_zero_point_violated {text : V → String} {c : Coo V} (h : c.WF) (hp : 0 < c.cols) {m : Nat} (hm : 1 ≤ m)
    (hm1 : m < c.rows) (h0 : c.at m 0 = 0) : sparseData text true true c = .error .InvalidArgumentValue := by
  refine sparseData_points_refused hp (fun _ => by omega) (fun d hd => ?_)
  have hlen : d.length < c.rows - 1 := by
    unfold pointDict plainPoints at hd
    dsimp only at hd
    rw [if_neg (by simp), if_pos rfl] at hd
    cases hd
    have h1 := PyDict.nodup_ofPairs ((PyDict.del (idxNames text c) 0).map (fun p => (p.2, p.1 - 1)))
    have h2 : (PyDict.ofPairs ((PyDict.del (idxNames text c) 0).map (fun p => (p.2, p.1 - 1)))).length ≤
        (PyDict.del (idxNames text c) 0).length := by
      have hsub : (PyDict.ofPairs ((PyDict.del (idxNames text c) 0).map (fun p => (p.2, p.1 - 1)))).Subperm
          ((PyDict.del (idxNames text c) 0).map (fun p => (p.2, p.1 - 1))) :=
        List.subperm_of_subset (List.Nodup.of_map _ h1) (fun p hp => mem_of_ofPairs hp)
      have := hsub.length_le
      rwa [List.length_map] at this
    have h3 : (PyDict.keys (PyDict.del (idxNames text c) 0)).Subperm
        ((List.range' 1 (c.rows - 1)).filter (fun k => decide (k ≠ m))) := by
      apply List.subperm_of_subset (PyDict.nodup_del (nodup_idx text c) 0)
      intro i hi
      obtain ⟨⟨i', s⟩, hq, rfl⟩ := List.mem_map.1 hi
      unfold PyDict.del at hq
      rw [List.mem_filter, mem_idx h] at hq
      obtain ⟨⟨q1, _⟩, q2⟩ := hq
      have hi0 : i' ≠ 0 := by simpa using q2
      have := (at_lt h q1).1
      rw [List.mem_filter, List.mem_range'_1, decide_eq_true_eq]
      refine ⟨by simp only; omega, ?_⟩
      rintro rfl
      exact q1 h0
    have h4 := h3.length_le
    unfold PyDict.keys at h4
    rw [List.length_map] at h4
    have h5 : ((List.range' 1 (c.rows - 1)).filter (fun k => decide (k ≠ m))).length < c.rows - 1 := by
      have := List.length_filter_lt_length_iff_exists (l := List.range' 1 (c.rows - 1)) (p := fun k => decide (k ≠ m)) |>.2
        ⟨m, by rw [List.mem_range'_1]; omega, by simp⟩
      rwa [List.length_range'] at this
    omega
  show (if d.length ≠ c.rows - 1 then _ else _) = _
  rw [if_pos (by omega)]

/-- **C99 (features).**  Two features whose names are zero are refused. -/
theorem C99_zero_features_refused {text : V → String} {pn : Bool} {c : Coo V} (h : c.WF) (hp : pn = true → 0 < c.cols)
    {i j : Nat} (hij : i ≠ j) (hi : i + off pn < c.cols) (hj : j + off pn < c.cols)
    (hi0 : c.at 0 (i + off pn) = 0) (hj0 : c.at 0 (j + off pn) = 0) :
    sparseData text pn true c = .error .InvalidArgumentValue := by
  obtain ⟨w, e, a⟩ := ftNames_after (text := text) h hp
  have hcols : (afterPoints pn c).cols = c.cols - off pn := by cases pn <;> rfl
  have hmiss : ∀ k, k + off pn < c.cols → c.at 0 (k + off pn) = 0 → k ∈ missingFts text (afterPoints pn c) := by
    intro k hk h0
    refine mem_missingFts.2 ⟨by rw [hcols]; omega, ?_⟩
    intro hc
    obtain ⟨⟨s, k'⟩, hm, rfl⟩ := List.mem_map.1 hc
    have := (mem_storedFts w hm).1
    rw [a] at this
    exact this h0
  have h2 : 1 < (missingFts text (afterPoints pn c)).length := by
    have hsub : [i, j].Subperm (missingFts text (afterPoints pn c)) := by
      apply List.subperm_of_subset (by simpa using hij)
      intro k hk
      rcases List.mem_cons.1 hk with rfl | hk
      · exact hmiss _ hi hi0
      · rw [List.mem_singleton] at hk; subst hk; exact hmiss _ hj hj0
    exact hsub.length_le
  have hlen := missing_length (text := text) w
  have hfd : featureDict text (afterPoints pn c) = .error .InvalidArgumentValue := by
    rw [featureDict_eq, if_pos (by omega), if_pos h2]
  unfold sparseData pointStep featureStep
  cases pn with
  | false =>
    simp only [bind, Except.bind, pure, Except.pure, if_true, Bool.false_eq_true, if_false]
    rw [show c = afterPoints false c from rfl, hfd]
  | true =>
    cases hd : pointDict text true c with
    | error e => simp only [bind, Except.bind, pure, Except.pure, hd, if_true, pointDict_error hd]
    | ok d =>
      simp only [bind, Except.bind, pure, Except.pure, hd, if_true]
      rw [show dropCol c = afterPoints true c from rfl, hfd]

/-- **C99 (violation, features).**  When one feature name occurs twice in the first row and all others are different the
matrix is accepted: one of the two features gets the name `'0'`, which is nowhere in the matrix. -/
theorem C99_feature_duplicate_violated {text : V → String} {c : Coo V} (h : c.WF) (hr : 0 < c.rows)
    (hz : ∀ j, j < c.cols → c.at 0 j ≠ 0) (h0 : "0" ∉ ftNames text false c) {i j : Nat} {s : String} (hij : i ≠ j)
    (hi : (ftNames text false c)[i]? = some s) (hj : (ftNames text false c)[j]? = some s)
    (hn : ((ftNames text false c).eraseIdx i).Nodup) :
    ∃ k o, (k = i ∨ k = j) ∧ sparseData text false true c = .ok o ∧ HoldsSp o (restTable false true c)
      (List.replicate (c.rows - 1) none) (((ftNames text false c).set k "0").map some) := by
  obtain ⟨k, d, hk, d1, d2, d3⟩ := featureDict_twice h hz h0 hij hi hj hn
  obtain ⟨b, b1, b2, b3, b4⟩ := axisOf_ok (n := c.cols) (by rw [List.length_set]; exact length_ftNames text false c) d2 d3
  obtain ⟨a, a1, a2, a3, a4⟩ := axisOf_none (c.rows - 1)
  obtain ⟨s1, s2⟩ := leftOver_shape false true c
  obtain ⟨l1, l2⟩ := leftOver_spec (pn := false) (fn := true) h (fun h => by cases h) (fun _ => hr)
  refine ⟨k, ⟨leftOver false true c, a, b⟩, hk, ?_, ⟨l1, l2, a2.trans s1.symm, b2.trans s2.symm, a3, b3, a4, b4⟩⟩
  rw [sparseData_eq (dp := []) (df := d) (fun h => by cases h) (fun _ => hr) (fun h => by cases h) (fun _ => d1)]
  show (do
    let pts ← axisOf (c.rows - 1) none
    let fts ← axisOf c.cols (some d)
    return (⟨leftOver false true c, pts, fts⟩ : SpObj V)) = _
  rw [a1, b1]
  rfl

/-! ## Detection -/

theorem filledRow_eq {c : Coo V} (h : c.WF) (i : Nat) : filledRow c i = (List.range c.cols).map (fun j => c.at i j) := by
  have key : ∀ (es : List (Ent V)) (r : List V), r.length = c.cols → (∀ e ∈ es, e ∈ c.ents) →
      (∀ j, j < c.cols → (r[j]? = some (c.at i j)) ∨ (r[j]? = some 0 ∧ ((⟨i, j, c.at i j⟩ : Ent V) ∈ es ∨ c.at i j = 0))) →
      es.foldl (fun r e => if e.row = i then r.set e.col e.val else r) r = (List.range c.cols).map (fun j => c.at i j) := by
    intro es
    induction es with
    | nil =>
      intro r hr _ hj
      apply List.ext_getElem?
      intro j
      rw [List.foldl_nil, List.getElem?_map]
      by_cases hjc : j < c.cols
      · rw [List.getElem?_range hjc]
        rcases hj j hjc with h1 | ⟨h1, h2 | h2⟩
        · exact h1
        · cases h2
        · rw [h1, Option.map_some, h2]
      · rw [List.getElem?_eq_none (by omega), List.getElem?_eq_none (by simpa using hjc)]
        rfl
    | cons e es ih =>
      intro r hr hes hj
      rw [List.foldl_cons]
      have he := hes e (by simp)
      have hes' : ∀ x ∈ es, x ∈ c.ents := fun x hx => hes x (List.mem_cons_of_mem _ hx)
      by_cases hei : e.row = i
      · rw [if_pos hei]
        refine ih _ (by rw [List.length_set]; exact hr) hes' ?_
        intro j hjc
        have hat := Coo.at_of_mem h.nodup he
        rw [hei] at hat
        by_cases hje : e.col = j
        · left
          rw [hje, List.getElem?_set_self (by omega), ← hat, hje]
        · rw [List.getElem?_set_ne hje]
          rcases hj j hjc with h1 | ⟨h1, h2 | h2⟩
          · exact .inl h1
          · refine .inr ⟨h1, .inl ?_⟩
            rcases List.mem_cons.1 h2 with h3 | h3
            · exact absurd (congrArg Ent.col h3).symm hje
            · exact h3
          · exact .inr ⟨h1, .inr h2⟩
      · rw [if_neg hei]
        refine ih _ hr hes' ?_
        intro j hjc
        rcases hj j hjc with h1 | ⟨h1, h2 | h2⟩
        · exact .inl h1
        · refine .inr ⟨h1, .inl ?_⟩
          rcases List.mem_cons.1 h2 with h3 | h3
          · exact absurd (congrArg Ent.row h3).symm hei
          · exact h3
        · exact .inr ⟨h1, .inr h2⟩
  unfold filledRow
  refine key c.ents _ (by simp) (fun e he => he) ?_
  intro j hj
  right
  refine ⟨by rw [List.getElem?_replicate, if_pos hj], ?_⟩
  by_cases h0 : c.at i j = 0
  · exact .inr h0
  · exact .inl ((Coo.mem_iff_at h.toCore h0).2 rfl)

/-- **C99 (detection).**  With two or more rows the names are detected exactly as in the same table given as a list of
rows. -/
theorem C99_detect_partial (C : CellOps V) (pn fn : NamesArg) {c : Coo V} (h : c.WF) (hr : 2 ≤ c.rows) :
    detectSparse C pn fn c = autoDetect C pn fn c.dense := by
  unfold detectSparse
  rw [filledRow_eq h, filledRow_eq h]
  have hd : c.dense = ((List.range c.cols).map (fun j => c.at 0 j)) :: ((List.range c.cols).map (fun j => c.at 1 j)) ::
      c.dense.drop 2 := by
    have h0 := Coo.dense_getElem (c := c) (i := 0) (by omega)
    have h1 := Coo.dense_getElem (c := c) (i := 1) (by omega)
    cases hc : c.dense with
    | nil => rw [hc] at h0; cases h0
    | cons a t =>
      cases t with
      | nil => rw [hc] at h1; cases h1
      | cons b t =>
        rw [hc] at h0 h1
        simp only [List.getElem?_cons_zero, List.getElem?_cons_succ, Option.some.injEq] at h0 h1
        rw [h0, h1]
        rfl
  rw [hd]
  unfold autoDetect
  cases (List.range c.cols).map (fun j => c.at 0 j) with
  | nil => rfl
  | cons x xs =>
    cases (List.range c.cols).map (fun j => c.at 1 j) with
    | nil => rfl
    | cons y ys => rfl

/-- **C99 (violation, one row).**  A matrix with one row of different texts: its only point is taken for feature names,
while in the same table given as a list no names are detected and the point is kept. -/
theorem C99_one_row_violated (C : CellOps V) (hnum : C.isNum 0 = true) {c : Coo V} (h : c.WF) (hr : c.rows = 1)
    (hc : 2 ≤ c.cols) (ht : ∀ j, j < c.cols → ∃ s, C.asStr (c.at 0 j) = some s ∧ s ≠ "pointNames")
    (hn : ((List.range c.cols).map (fun j => C.asStr (c.at 0 j))).Nodup) :
    detectSparse C .auto .auto c = (false, true) ∧ autoDetect C .auto .auto c.dense = (false, false) ∧
      (leftOver false true c).rows = 0 := by
  refine ⟨?_, ?_, ?_⟩
  · unfold detectSparse
    rw [filledRow_eq h, filledRow_eq h]
    have hz : ∀ j, c.at 1 j = 0 := by
      intro j
      by_contra h0
      have := (at_lt h h0).1
      omega
    obtain ⟨n, hcn⟩ : ∃ n, c.cols = n + 1 := ⟨c.cols - 1, by omega⟩
    rw [hcn] at ht hn ⊢
    rw [List.range_succ_eq_map] at hn ⊢
    simp only [List.map_cons, List.map_map, hz] at hn ⊢
    obtain ⟨s0, hs0, hs0'⟩ := ht 0 (by omega)
    have hsp : saysPointNames C (c.at 0 0 :: (List.range n).map ((fun j => c.at 0 j) ∘ Nat.succ)) = false := by
      unfold saysPointNames
      simp only [List.head?_cons, Option.bind_some, hs0, Option.some.injEq]
      simpa using hs0'
    unfold autoDetect
    have hhead : looksLikeHeader C .auto (c.at 0 0 :: (List.range n).map ((fun j => c.at 0 j) ∘ Nat.succ))
        (0 :: (List.range n).map ((fun _ => (0 : V)) ∘ Nat.succ)) = true := by
      unfold looksLikeHeader
      rw [hsp, Bool.and_false, if_neg (by simp)]
      have ha : allText C (c.at 0 0 :: (List.range n).map ((fun j => c.at 0 j) ∘ Nat.succ)) = true := by
        unfold allText
        rw [List.all_eq_true]
        intro v hv
        rcases List.mem_cons.1 hv with rfl | hv
        · rw [hs0]; rfl
        · obtain ⟨j, hj, rfl⟩ := List.mem_map.1 hv
          obtain ⟨s, hs, _⟩ := ht (j + 1) (by have := List.mem_range.1 hj; omega)
          show (C.asStr (c.at 0 (j + 1))).isSome = true
          rw [hs]; rfl
      have hd : noDup C ((c.at 0 0 :: (List.range n).map ((fun j => c.at 0 j) ∘ Nat.succ)).tail) = true := by
        unfold noDup
        rw [decide_eq_true_eq, List.tail_cons, List.map_map]
        exact (List.nodup_cons.1 hn).2
      rw [ha, hd]
      simp [hnum]
    dsimp only
    rw [if_neg (by decide), hhead, hsp]
    rfl
  · have hd : c.dense = [(List.range c.cols).map (fun j => c.at 0 j)] := by
      unfold Coo.dense
      rw [hr]
      rfl
    rw [hd]
    unfold autoDetect
    cases (List.range c.cols).map (fun j => c.at 0 j) with
    | nil => rfl
    | cons x xs => rfl
  · rw [(leftOver_shape false true c).1, hr]
    rfl

/-! ## Examples -/

/-- The matrix [[0, 5, 0], [7, 1, 2], [8, 0, 3]]: points 7 and 8, features 5 and 0. -/
def exNamed : Coo Nat := ⟨3, 3, [⟨1, 0, 7⟩, ⟨0, 1, 5⟩, ⟨2, 0, 8⟩, ⟨1, 1, 1⟩, ⟨2, 2, 3⟩, ⟨1, 2, 2⟩], none, none⟩

theorem exNamed_wf : exNamed.WF where
  nodup := by decide
  row_lt := by decide
  col_lt := by decide
  nonzero := by decide
  sorted_ok := fun _ h => by cases h
  indices_ok := fun _ h => by cases h

/-- A case of `C99_names_partial`, with a feature named zero. -/
example : ∃ o, sparseData (fun v : Nat => toString v) true true exNamed = .ok o ∧
    HoldsSp o [[1, 2], [0, 3]] [some "7", some "8"] [some "5", some "0"] :=
  C99_names_partial exNamed_wf (by decide) (by decide) (by decide) (by decide) (fun _ _ i h1 h2 => by
    have : i = 1 ∨ i = 2 := by have : i < 3 := h2; omega
    rcases this with rfl | rfl <;> decide)

/-- A case of `C99_point_duplicate_refused`: points 7 and 7. -/
example : (sparseData (fun v : Nat => toString v) true false ⟨2, 2, [⟨0, 0, 7⟩, ⟨1, 0, 7⟩, ⟨1, 1, 1⟩], none, none⟩).map (fun _ => ()) =
    .error .InvalidArgumentValue := by decide

/-- A case of `C99_zero_point_violated`: points 0 and 8, feature 5. -/
example : (sparseData (fun v : Nat => toString v) true true ⟨3, 2, [⟨0, 1, 5⟩, ⟨2, 0, 8⟩, ⟨1, 1, 1⟩], none, none⟩).map (fun _ => ()) =
    .error .InvalidArgumentValue := by decide

/-- A case of `C99_feature_duplicate_violated`: features 5 and 5 become '0' and '5'. -/
example : (sparseData (fun v : Nat => toString v) false true ⟨2, 2, [⟨0, 0, 5⟩, ⟨0, 1, 5⟩, ⟨1, 1, 1⟩], none, none⟩).map
    (fun o => o.fts.getNames) = .ok [some "0", some "5"] := by decide

/-- A case of `C99_zero_features_refused`. -/
example : (sparseData (fun v : Nat => toString v) false true ⟨2, 3, [⟨0, 0, 5⟩, ⟨1, 1, 1⟩], none, none⟩).map (fun _ => ()) =
    .error .InvalidArgumentValue := by decide

/-- A case of `C99_one_row_violated`: elements from 1 on are texts, 0 is the number zero. -/
example : detectSparse (⟨fun v => if v = 0 then none else some (toString v), fun v => v == 0, toString, fun _ => false, 0, 0⟩
    : CellOps Nat) .auto .auto ⟨1, 2, [⟨0, 0, 5⟩, ⟨0, 1, 6⟩], none, none⟩ = (false, true) := by decide

end Nimble.Sp
