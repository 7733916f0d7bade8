import Verif.Model.ConvertType
import Verif.Props.Sources

/-!
# C91 `convertToType`
-/

namespace Nimble.ConvType
open Nimble
variable {V T : Type}

/-! ## Specification -/

/-- The type the user wants for feature `j` with this name: by its index or by its name. -/
def wantedType (arg : ConvArg T) (j : Nat) (name : Option String) : Option T :=
  match arg with
  | .none => none
  | .one t => some t
  | .list l => (l[j]?).join
  | .dict d => ((PyDict.get? d (.idx j)).or (name.bind (fun s => PyDict.get? d (.name s)))).join

/-- `v'` is `v` converted to this type; without a type, and for `object`, it is `v` itself. -/
def Converted (K : TypeOps V T) (t : Option T) (v v' : V) : Prop :=
  match t with
  | none => v' = v
  | some t => if K.isObject t = true then v' = v else K.conv t v = .ok v'

/-! ## Values and rows -/

theorem convValue_ok {K : TypeOps V T} {t : Option T} {v v' : V} :
    convValue K t v = .ok v' ↔ Converted K t v v' := by
  cases t with
  | none =>
    simp only [convValue, Converted]
    exact ⟨fun h => by cases h; rfl, fun h => by rw [h]⟩
  | some t =>
    simp only [convValue, Converted]
    by_cases h : K.isObject t = true
    · rw [if_pos h, if_pos h]
      exact ⟨fun h => by cases h; rfl, fun h => by rw [h]⟩
    · rw [if_neg h, if_neg h]
      cases hc : K.conv t v with
      | error e => exact ⟨fun h => (by cases h), fun h => (by cases h)⟩
      | ok w => exact ⟨fun h => by cases h; rfl, fun h => by cases h; rfl⟩

theorem convEach_ok {K : TypeOps V T} {types : List (Option T)} {data r : List (List V)}
    (hw : ∀ row ∈ data, row.length = types.length) :
    convEach K types data = .ok r ↔
      List.Forall₂ (fun row row' => row'.length = row.length ∧ ∀ (j : Nat) v t, row[j]? = some v → types[j]? = some t →
        ∃ v', row'[j]? = some v' ∧ Converted K t v v') data r := by
  unfold convEach
  rw [Sources.mapRes_forall₂]
  have key : ∀ row ∈ data, ∀ row', convRow K types row = .ok row' ↔ (row'.length = row.length ∧
      ∀ (j : Nat) v t, row[j]? = some v → types[j]? = some t → ∃ v', row'[j]? = some v' ∧ Converted K t v v') := by
    intro row hrow row'
    have hl := hw row hrow
    unfold convRow
    rw [Sources.mapRes_forall₂, List.forall₂_iff_get]
    have hz : (row.zip types).length = row.length := by simp [hl]
    constructor
    · rintro ⟨h1, h2⟩
      refine ⟨by omega, fun j v t hv ht => ?_⟩
      have hj := (List.getElem?_eq_some_iff.1 hv).1
      have := h2 j (by omega) (by omega)
      simp only [List.get_eq_getElem, List.getElem_zip] at this
      rw [(List.getElem?_eq_some_iff.1 hv).2, (List.getElem?_eq_some_iff.1 ht).2, convValue_ok] at this
      exact ⟨_, List.getElem?_eq_getElem (by omega), this⟩
    · rintro ⟨h1, h2⟩
      refine ⟨by omega, fun j hj1 hj2 => ?_⟩
      obtain ⟨v', e, hc⟩ := h2 j _ _ (List.getElem?_eq_getElem (by omega)) (List.getElem?_eq_getElem (by omega))
      simp only [List.get_eq_getElem, List.getElem_zip]
      rw [convValue_ok]
      rw [(List.getElem?_eq_some_iff.1 e).2]
      exact hc
  constructor
  · intro h
    rw [List.forall₂_iff_get] at h ⊢
    exact ⟨h.1, fun i h1 h2 => (key _ (List.get_mem _ _) _).1 (h.2 i h1 h2)⟩
  · intro h
    rw [List.forall₂_iff_get] at h ⊢
    exact ⟨h.1, fun i h1 h2 => (key _ (List.get_mem _ _) _).2 (h.2 i h1 h2)⟩

/-- One type for all is the list repeating it. -/
theorem convAll_eq {K : TypeOps V T} {t : T} {data : List (List V)} {n : Nat} (hw : ∀ row ∈ data, row.length = n) :
    convAll K t data = convEach K (List.replicate n (some t)) data := by
  unfold convAll convEach
  have key : ∀ row : List V, row.length = n → mapRes (convValue K (some t)) row = convRow K (List.replicate n (some t)) row := by
    intro row hrow
    unfold convRow
    clear hw
    subst hrow
    induction row with
    | nil => rfl
    | cons v r ih =>
      simp only [mapRes, List.length_cons, List.replicate_succ, List.zip_cons_cons]
      rw [ih]
  induction data with
  | nil => rfl
  | cons row rows ih =>
    simp only [mapRes]
    rw [key row (hw row (by simp)), ih (fun r hr => hw r (by simp [hr]))]

theorem convEach_none {K : TypeOps V T} {n : Nat} {data : List (List V)} (hw : ∀ row ∈ data, row.length = n) :
    convEach K (List.replicate n none) data = .ok data := by
  rw [convEach_ok (by simpa using hw)]
  rw [List.forall₂_same]
  intro row _
  refine ⟨rfl, fun j v t hv ht => ⟨v, hv, ?_⟩⟩
  rw [List.getElem?_replicate] at ht
  split at ht
  · cases ht; rfl
  · cases ht

/-! ## The dictionary -/

variable [DecidableEq T]

/-- The key `key` stands for feature `i` with this name. -/
def Addresses (key : ConvKey) (i : Nat) (name : Option String) : Prop :=
  key = .idx i ∨ ∃ s, name = some s ∧ key = .name s

/-- Index and name of a feature do not ask for different types. -/
def Agrees (d : PyDict ConvKey (Option T)) (i : Nat) (name : Option String) : Prop :=
  ∀ s x y, name = some s → PyDict.get? d (.idx i) = some x → PyDict.get? d (.name s) = some y → x = y

theorem typeByName_eq (d : PyDict ConvKey (Option T)) (n : Option String) :
    typeByName d n = n.bind (fun s => PyDict.get? d (.name s)) := by
  cases n <;> rfl

theorem get_delName (d : PyDict ConvKey (Option T)) (n : Option String) (key : ConvKey) :
    PyDict.get? (delName d n) key = if (∃ s, n = some s ∧ key = .name s) then none else PyDict.get? d key := by
  cases n with
  | none => simp [delName]
  | some s =>
    simp only [delName, PyDict.get?_del]
    by_cases h : key = .name s <;> simp [h, eq_comm]

theorem convRound_ok {d : PyDict ConvKey (Option T)} {i : Nat} {n : Option String} (ha : Agrees d i n) :
    ∃ d1, convRound d i n = .ok (wantedType (.dict d) i n, d1) ∧
      ∀ key, (Addresses key i n → PyDict.get? d1 key = none) ∧
        (¬ Addresses key i n → PyDict.get? d1 key = PyDict.get? d key) := by
  have hwt : wantedType (.dict d) i n =
      ((PyDict.get? d (.idx i)).or (n.bind (fun s => PyDict.get? d (.name s)))).join := rfl
  unfold convRound
  rw [typeByName_eq, hwt]
  cases h1 : PyDict.get? d (.idx i) with
  | some x =>
    cases h2 : n.bind (fun s => PyDict.get? d (.name s)) with
    | some y =>
      have hxy : x = y := by
        cases n with
        | none => cases h2
        | some s => exact ha s x y rfl h1 h2
      subst hxy
      dsimp only
      rw [if_pos rfl]
      refine ⟨_, rfl, fun key => ⟨?_, ?_⟩⟩
      · rintro (rfl | ⟨s, rfl, rfl⟩)
        · rw [get_delName, PyDict.get?_del]; simp
        · rw [get_delName]; simp
      · intro hk
        unfold Addresses at hk
        rw [not_or] at hk
        rw [get_delName, if_neg hk.2, PyDict.get?_del, if_neg (fun e => hk.1 e.symm)]
    | none =>
      refine ⟨_, rfl, fun key => ⟨?_, ?_⟩⟩
      · rintro (rfl | ⟨s, rfl, rfl⟩)
        · rw [PyDict.get?_del]; simp
        · rw [PyDict.get?_del]
          simpa using h2
      · intro hk
        unfold Addresses at hk
        rw [not_or] at hk
        rw [PyDict.get?_del, if_neg (fun e => hk.1 e.symm)]
  | none =>
    cases h2 : n.bind (fun s => PyDict.get? d (.name s)) with
    | some y =>
      refine ⟨_, rfl, fun key => ⟨?_, ?_⟩⟩
      · rintro (rfl | ⟨s, rfl, rfl⟩)
        · rw [get_delName]; simp [h1]
        · rw [get_delName]; simp
      · intro hk
        unfold Addresses at hk
        rw [not_or] at hk
        rw [get_delName, if_neg hk.2]
    | none =>
      refine ⟨_, rfl, fun key => ⟨?_, fun _ => rfl⟩⟩
      rintro (rfl | ⟨s, rfl, rfl⟩)
      · exact h1
      · exact h2

theorem convRound_conflict {d : PyDict ConvKey (Option T)} {i : Nat} {n : Option String} (ha : ¬ Agrees d i n) :
    convRound d i n = .error .InvalidArgumentValue := by
  unfold Agrees at ha
  push_neg at ha
  obtain ⟨s, x, y, rfl, h1, h2, hne⟩ := ha
  unfold convRound
  simp only [typeByName, h1, h2]
  rw [if_neg hne]

/-- `key` stands for one of these features, the first of which has index `i`. -/
def AddressesOne (key : ConvKey) (i : Nat) (ns : List (Option String)) : Prop :=
  ∃ (k : Nat) (n : Option String), ns[k]? = some n ∧ Addresses key (i + k) n

theorem addressesOne_cons {key : ConvKey} {i : Nat} {n : Option String} {ns : List (Option String)} :
    AddressesOne key i (n :: ns) ↔ Addresses key i n ∨ AddressesOne key (i + 1) ns := by
  constructor
  · rintro ⟨k, m, h1, h2⟩
    cases k with
    | zero => cases h1; exact Or.inl h2
    | succ k => exact Or.inr ⟨k, m, h1, by rw [show i + 1 + k = i + (k + 1) by omega]; exact h2⟩
  · rintro (h | ⟨k, m, h1, h2⟩)
    · exact ⟨0, n, rfl, h⟩
    · exact ⟨k + 1, m, h1, by rw [show i + (k + 1) = i + 1 + k by omega]; exact h2⟩

theorem addresses_later {key : ConvKey} {i k : Nat} {n m : Option String} {ns : List (Option String)}
    (hn : (n :: ns).reduceOption.Nodup) (hk : ns[k]? = some m) (h : Addresses key (i + 1 + k) m) :
    ¬ Addresses key i n := by
  rintro (h' | ⟨s, rfl, h'⟩)
  · rcases h with h | ⟨s, _, h⟩
    · rw [h'] at h
      injection h with h
      omega
    · rw [h'] at h; cases h
  · rcases h with h | ⟨s', rfl, h⟩
    · rw [h'] at h; cases h
    · rw [h'] at h
      cases h
      rw [List.reduceOption_cons_of_some, List.nodup_cons] at hn
      apply hn.1
      rw [List.reduceOption_mem_iff]
      exact List.mem_of_getElem? hk

theorem nodup_tail {n : Option String} {ns : List (Option String)} (hn : (n :: ns).reduceOption.Nodup) :
    ns.reduceOption.Nodup := by
  cases n with
  | none => rwa [List.reduceOption_cons_of_none] at hn
  | some s => rw [List.reduceOption_cons_of_some, List.nodup_cons] at hn; exact hn.2

theorem same_later {d d1 : PyDict ConvKey (Option T)} {i k : Nat} {n m : Option String} {ns : List (Option String)}
    (hn : (n :: ns).reduceOption.Nodup) (hk : ns[k]? = some m)
    (h : ∀ key, (Addresses key i n → PyDict.get? d1 key = none) ∧
        (¬ Addresses key i n → PyDict.get? d1 key = PyDict.get? d key)) :
    (Agrees d1 (i + 1 + k) m ↔ Agrees d (i + 1 + k) m) ∧
      wantedType (.dict d1) (i + 1 + k) m = wantedType (.dict d) (i + 1 + k) m := by
  have h1 : PyDict.get? d1 (.idx ((i + 1 + k : Nat) : Int)) = PyDict.get? d (.idx ((i + 1 + k : Nat) : Int)) :=
    (h _).2 (addresses_later hn hk (Or.inl rfl))
  have h2 : ∀ s, m = some s → PyDict.get? d1 (.name s) = PyDict.get? d (.name s) :=
    fun s hs => (h _).2 (addresses_later hn hk (Or.inr ⟨s, hs, rfl⟩))
  constructor
  · constructor
    · intro ha s x y hs hx hy
      exact ha s x y hs (by rw [h1]; exact hx) (by rw [h2 s hs]; exact hy)
    · intro ha s x y hs hx hy
      exact ha s x y hs (by rw [← h1]; exact hx) (by rw [← h2 s hs]; exact hy)
  · simp only [wantedType]
    rw [h1]
    cases m with
    | none => rfl
    | some s => simp only [Option.bind_some]; rw [h2 s rfl]

theorem convLoop_ok : ∀ (ns : List (Option String)) (d : PyDict ConvKey (Option T)) (i : Nat),
    ns.reduceOption.Nodup → (∀ (k : Nat) n, ns[k]? = some n → Agrees d (i + k) n) →
    ∃ l d', convLoop d i ns = .ok (l, d') ∧ l.length = ns.length ∧
      (∀ (k : Nat) n, ns[k]? = some n → l[k]? = some (wantedType (.dict d) (i + k) n)) ∧
      ∀ key, (AddressesOne key i ns → PyDict.get? d' key = none) ∧
        (¬ AddressesOne key i ns → PyDict.get? d' key = PyDict.get? d key) := by
  intro ns
  induction ns with
  | nil =>
    intro d i _ _
    refine ⟨[], d, rfl, rfl, by simp, fun key => ⟨?_, fun _ => rfl⟩⟩
    rintro ⟨k, n, h, _⟩
    simp at h
  | cons n ns ih =>
    intro d i hn ha
    obtain ⟨d1, e1, g1⟩ := convRound_ok (ha 0 n rfl)
    simp only [Nat.add_zero] at e1 g1
    have hlater : ∀ (k : Nat) m, ns[k]? = some m → Agrees d1 (i + 1 + k) m := by
      intro k m hk
      rw [(same_later hn hk g1).1, show i + 1 + k = i + (k + 1) by omega]
      exact ha (k + 1) m hk
    obtain ⟨l, d', e2, l1, l2, l3⟩ := ih d1 (i + 1) (nodup_tail hn) hlater
    refine ⟨wantedType (.dict d) i n :: l, d', ?_, by simp [l1], ?_, ?_⟩
    · simp only [convLoop, e1, e2, bind, Except.bind, pure, Except.pure]
    · intro k m hk
      cases k with
      | zero => cases hk; rfl
      | succ k =>
        have hk' : ns[k]? = some m := hk
        have := l2 k m hk'
        rw [(same_later hn hk' g1).2] at this
        rw [show i + (k + 1) = i + 1 + k by omega]
        exact this
    · intro key
      rw [addressesOne_cons]
      refine ⟨?_, ?_⟩
      · intro h
        by_cases h' : AddressesOne key (i + 1) ns
        · exact (l3 key).1 h'
        · rw [(l3 key).2 h']
          rcases h with h | h
          · exact (g1 key).1 h
          · exact absurd h h'
      · intro h
        rw [not_or] at h
        rw [(l3 key).2 h.2, (g1 key).2 h.1]

theorem convLoop_conflict : ∀ (ns : List (Option String)) (d : PyDict ConvKey (Option T)) (i : Nat),
    ns.reduceOption.Nodup → (∃ (k : Nat) (n : Option String), ns[k]? = some n ∧ ¬ Agrees d (i + k) n) →
    convLoop d i ns = .error .InvalidArgumentValue := by
  intro ns
  induction ns with
  | nil => rintro d i _ ⟨k, n, h, _⟩; simp at h
  | cons n ns ih =>
    rintro d i hn ⟨k, m, hk, ha⟩
    by_cases h0 : Agrees d i n
    · obtain ⟨d1, e1, g1⟩ := convRound_ok h0
      cases k with
      | zero => cases hk; exact absurd h0 ha
      | succ k =>
        have hk' : ns[k]? = some m := hk
        have := ih d1 (i + 1) (nodup_tail hn) ⟨k, m, hk', by
          rw [(same_later hn hk' g1).1, show i + 1 + k = i + (k + 1) by omega]; exact ha⟩
        simp only [convLoop, e1, this, bind, Except.bind]
    · simp only [convLoop, convRound_conflict h0, bind, Except.bind]

/-- The key names a feature of this axis. -/
def Known (fts : AxisSt) (key : ConvKey) : Prop :=
  match key with
  | .idx i => 0 ≤ i ∧ i < fts.len
  | .name s => some s ∈ fts.getNames

theorem known_iff {fts : AxisSt} (hk : fts.Ok) {key : ConvKey} : AddressesOne key 0 fts.getNames ↔ Known fts key := by
  have hl : fts.getNames.length = fts.len := hk.length_getNames
  constructor
  · rintro ⟨k, n, h1, h2⟩
    rcases h2 with rfl | ⟨s, rfl, rfl⟩
    · have := (List.getElem?_eq_some_iff.1 h1).1
      simp only [Known]
      omega
    · exact List.mem_of_getElem? h1
  · cases key with
    | idx i =>
      rintro ⟨h1, h2⟩
      obtain ⟨k, rfl⟩ := Int.eq_ofNat_of_zero_le h1
      have hk' : k < fts.getNames.length := by omega
      exact ⟨k, _, List.getElem?_eq_getElem hk', Or.inl (by simp)⟩
    | name s =>
      intro h
      obtain ⟨k, hk'⟩ := List.mem_iff_getElem?.1 h
      exact ⟨k, _, hk', Or.inr ⟨s, rfl, rfl⟩⟩

/-! ## The objects -/

omit [DecidableEq T] in
theorem elem_bounds {o : Obj V} (h : o.WF) {i j : Nat} {v : V} (hv : o.elem? i j = some v) :
    i < o.pts.len ∧ j < o.fts.len := by
  unfold Obj.elem? at hv
  cases hr : o.data[i]? with
  | none => rw [hr] at hv; cases hv
  | some row =>
    rw [hr] at hv
    have h1 := (List.getElem?_eq_some_iff.1 hr).1
    have h2 := (List.getElem?_eq_some_iff.1 (show row[j]? = some v from hv)).1
    rw [h.cols row (List.mem_of_getElem? hr)] at h2
    rw [h.rows] at h1
    exact ⟨h1, h2⟩

omit [DecidableEq T] in
theorem withData_ok {K : TypeOps V T} {o : Obj V} (h : o.WF) {types : List (Option T)}
    (hl : types.length = o.fts.len) {r : Obj V} (hr : withData o (convEach K types o.data) = .ok r) :
    r.WF ∧ r.pts = o.pts ∧ r.fts = o.fts ∧ ∀ (i j : Nat) v, o.elem? i j = some v →
      ∃ v', r.elem? i j = some v' ∧ Converted K (types[j]?).join v v' := by
  unfold withData at hr
  cases hc : convEach K types o.data with
  | error e => rw [hc] at hr; cases hr
  | ok rows =>
    rw [hc] at hr
    cases hr
    rw [convEach_ok (by intro row hrow; rw [hl]; exact h.cols row hrow)] at hc
    have hlen := hc.length_eq
    refine ⟨⟨by rw [← hlen]; exact h.rows, ?_, h.pts, h.fts⟩, rfl, rfl, ?_⟩
    · intro row' hrow'
      obtain ⟨i, hi⟩ := List.mem_iff_getElem?.1 hrow'
      have hi' : i < rows.length := (List.getElem?_eq_some_iff.1 hi).1
      have h1 : o.data[i]? = some (o.data[i]'(by omega)) := List.getElem?_eq_getElem (by omega)
      obtain ⟨q, hq, hR⟩ := Sources.forall₂_at hc h1
      rw [hq] at hi; cases hi
      rw [hR.1]
      exact h.cols _ (List.mem_of_getElem? h1)
    · intro i j v hv
      obtain ⟨hi, hj⟩ := elem_bounds h hv
      unfold Obj.elem? at hv ⊢
      cases hrow : o.data[i]? with
      | none => rw [hrow] at hv; cases hv
      | some row =>
        rw [hrow] at hv
        obtain ⟨q, hq, hR⟩ := Sources.forall₂_at hc hrow
        have ht : types[j]? = some (types[j]'(by omega)) := List.getElem?_eq_getElem (by omega)
        obtain ⟨v', e1, e2⟩ := hR.2 j v _ hv ht
        refine ⟨v', ?_, ?_⟩
        · show (rows[i]?).bind (·[j]?) = some v'
          rw [hq]; exact e1
        · rw [ht]; exact e2

theorem mapRes_total {A B : Type} {f : A → Res B} : ∀ {l : List A}, (∀ a ∈ l, ∃ b, f a = .ok b) →
    ∃ r, mapRes f l = .ok r := by
  intro l
  induction l with
  | nil => intro _; exact ⟨[], rfl⟩
  | cons a as ih =>
    intro h
    obtain ⟨b, hb⟩ := h a (by simp)
    obtain ⟨r, hr⟩ := ih (fun x hx => h x (by simp [hx]))
    exact ⟨b :: r, by simp only [mapRes, hb, hr, bind, Except.bind, pure, Except.pure]⟩

theorem mapRes_error {A B : Type} {f : A → Res B} {e : Err} : ∀ {l : List A}, mapRes f l = .error e →
    ∃ a ∈ l, f a = .error e := by
  intro l
  induction l with
  | nil => intro h; cases h
  | cons a as ih =>
    intro h
    simp only [mapRes, bind, Except.bind, pure, Except.pure] at h
    cases hb : f a with
    | error x => rw [hb] at h; cases h; exact ⟨a, by simp, hb⟩
    | ok b =>
      rw [hb] at h
      dsimp only at h
      cases hr : mapRes f as with
      | error x =>
        rw [hr] at h
        cases h
        obtain ⟨y, hy, hy'⟩ := ih hr
        exact ⟨y, by simp [hy], hy'⟩
      | ok r => rw [hr] at h; cases h

theorem convertObj_one (K : TypeOps V T) (o : Obj V) (t : T) :
    convertObj K o (.one t) = (withData o (convAll K t o.data)).map (fun r => (r, .one t)) := by
  show (do let r ← withData o (convAll K t o.data); return (r, ConvArg.one t)) = _
  cases withData o (convAll K t o.data) <;> rfl

theorem convertObj_list (K : TypeOps V T) (o : Obj V) (l : List (Option T)) :
    convertObj K o (.list l) = (convList K o l).map (fun r => (r, .list l)) := by
  show (do let r ← convList K o l; return (r, ConvArg.list l)) = _
  cases convList K o l <;> rfl

theorem convertObj_dict {K : TypeOps V T} {o : Obj V} {d : PyDict ConvKey (Option T)} {t : List (Option T) × PyDict ConvKey (Option T)}
    (h : typesFromDict d o.fts = .ok t) :
    convertObj K o (.dict d) = (withData o (convEach K t.1 o.data)).map (fun r => (r, .dict t.2)) := by
  show (do let t ← typesFromDict d o.fts; let r ← withData o (convEach K t.1 o.data); return (r, ConvArg.dict t.2)) = _
  rw [h]
  show (do let r ← withData o (convEach K t.1 o.data); return (r, ConvArg.dict t.2)) = _
  cases withData o (convEach K t.1 o.data) <;> rfl

theorem convertObj_dict_error {K : TypeOps V T} {o : Obj V} {d : PyDict ConvKey (Option T)} {e : Err}
    (h : typesFromDict d o.fts = .error e) : convertObj K o (.dict d) = .error e := by
  show (do let t ← typesFromDict d o.fts; let r ← withData o (convEach K t.1 o.data); return (r, ConvArg.dict t.2)) = _
  rw [h]; rfl

omit [DecidableEq T] in
theorem withData_iff {K : TypeOps V T} {o : Obj V} (h : o.WF) {types : List (Option T)}
    (hl : types.length = o.fts.len) : (∃ r, withData o (convEach K types o.data) = .ok r) ↔
      ∀ (i j : Nat) v, o.elem? i j = some v → ∃ v', Converted K (types[j]?).join v v' := by
  constructor
  · rintro ⟨r, hr⟩ i j v hv
    obtain ⟨_, _, _, g⟩ := withData_ok h hl hr
    obtain ⟨v', _, e⟩ := g i j v hv
    exact ⟨v', e⟩
  · intro g
    have key : ∃ rows, convEach K types o.data = .ok rows := by
      unfold convEach
      apply mapRes_total
      intro row hrow
      unfold convRow
      apply mapRes_total
      intro p hp
      obtain ⟨i, hi⟩ := List.mem_iff_getElem?.1 hrow
      obtain ⟨j, hj⟩ := List.mem_iff_getElem?.1 hp
      rw [List.getElem?_zip_eq_some] at hj
      obtain ⟨v', e⟩ := g i j p.1 (by unfold Obj.elem?; rw [hi]; exact hj.1)
      rw [hj.2] at e
      exact ⟨v', convValue_ok.2 e⟩
    obtain ⟨rows, e⟩ := key
    exact ⟨_, by unfold withData; rw [e]; rfl⟩

/-- The dictionary is one `nimble.data` can use for these features. -/
def DictFits (fts : AxisSt) (d : PyDict ConvKey (Option T)) : Prop :=
  (∀ (j : Nat) n, fts.getNames[j]? = some n → Agrees d j n) ∧
    ∀ key ∈ PyDict.keys d, Known fts key ∨ (fts.tbl ≠ none ∧ ∃ i : Int, key = .idx i ∧ i < 0)

theorem typesFromDict_ok {fts : AxisSt} (hk : fts.Ok) {d : PyDict ConvKey (Option T)} (hf : DictFits fts d) :
    ∃ l d', typesFromDict d fts = .ok (l, d') ∧ l.length = fts.len ∧
      (∀ (j : Nat), j < fts.len → (l[j]?).join = wantedType (.dict d) j (fts.getNames[j]?).join) ∧
      ∀ key, (Known fts key → PyDict.get? d' key = none) ∧
        (¬ Known fts key → PyDict.get? d' key = PyDict.get? d key) := by
  have hn : fts.getNames.reduceOption.Nodup := hk.reduceOption_nodup
  have hl : fts.getNames.length = fts.len := hk.length_getNames
  obtain ⟨l, d', e1, l1, l2, l3⟩ := convLoop_ok fts.getNames d 0 hn
    (by intro k n hkn; rw [Nat.zero_add]; exact hf.1 k n hkn)
  refine ⟨l, d', ?_, by omega, ?_, fun key => by rw [← known_iff hk]; exact l3 key⟩
  · unfold typesFromDict
    simp only [e1, bind, Except.bind, pure, Except.pure]
    rw [if_pos]
    rw [List.all_eq_true]
    intro key hkey
    have hs := PyDict.mem_keys.1 hkey
    have hnk : ¬ Known fts key := by
      intro hh
      rw [(l3 key).1 ((known_iff hk).2 hh)] at hs
      cases hs
    rw [(l3 key).2 (fun hh => hnk ((known_iff hk).1 hh))] at hs
    rcases hf.2 key (PyDict.mem_keys.2 hs) with h | ⟨ht, i, rfl, hi⟩
    · exact absurd h hnk
    · unfold leftoverOk AxisSt.getNamesNoGen
      cases hT : fts.tbl with
      | none => exact absurd hT ht
      | some t =>
        simp only [Option.map_some]
        apply decide_eq_true
        omega
  · intro j hj
    have : fts.getNames[j]? = some (fts.getNames[j]'(by omega)) := List.getElem?_eq_getElem (by omega)
    rw [l2 j _ this, this, Nat.zero_add]
    rfl

theorem typesFromDict_refused {fts : AxisSt} (hk : fts.Ok) {d : PyDict ConvKey (Option T)} (hf : ¬ DictFits fts d) :
    typesFromDict d fts = .error .InvalidArgumentValue := by
  have hn : fts.getNames.reduceOption.Nodup := hk.reduceOption_nodup
  by_cases ha : ∀ (j : Nat) n, fts.getNames[j]? = some n → Agrees d j n
  · have hu : ∃ key ∈ PyDict.keys d, ¬ (Known fts key ∨ (fts.tbl ≠ none ∧ ∃ i : Int, key = .idx i ∧ i < 0)) := by
      by_contra hc
      push_neg at hc
      exact hf ⟨ha, hc⟩
    obtain ⟨key, hkey, hbad⟩ := hu
    obtain ⟨l, d', e1, _, _, l3⟩ := convLoop_ok fts.getNames d 0 hn
      (by intro k n hkn; rw [Nat.zero_add]; exact ha k n hkn)
    unfold typesFromDict
    simp only [e1, bind, Except.bind, pure, Except.pure]
    rw [if_neg]
    rw [List.all_eq_true]
    intro hall
    have hs := PyDict.mem_keys.1 hkey
    rw [not_or] at hbad
    rw [← (l3 key).2 (fun hh => hbad.1 ((known_iff hk).1 hh))] at hs
    have := hall key (PyDict.mem_keys.2 hs)
    unfold leftoverOk AxisSt.getNamesNoGen at this
    cases hT : fts.tbl with
    | none => rw [hT] at this; cases key <;> simp at this
    | some t =>
      have hg : fts.getNames = t.inv := by unfold AxisSt.getNames; rw [hT]
      have hl : t.inv.length = fts.len := by rw [← hg]; exact hk.length_getNames
      rw [hT] at this
      cases key with
      | idx i =>
        simp only [Option.map_some, decide_eq_true_eq] at this
        apply hbad.2
        refine ⟨by rw [hT]; simp, i, rfl, ?_⟩
        by_contra hi
        exact hbad.1 ⟨by omega, by omega⟩
      | name s =>
        simp only [Option.map_some, decide_eq_true_eq] at this
        exact hbad.1 (by rw [Known, hg]; exact this)
  · push_neg at ha
    obtain ⟨j, n, h1, h2⟩ := ha
    have := convLoop_conflict fts.getNames d 0 hn ⟨j, n, h1, by rw [Nat.zero_add]; exact h2⟩
    unfold typesFromDict
    simp only [this, bind, Except.bind]

/-- The argument is one `nimble.data` can use for these features. -/
def ArgFits (fts : AxisSt) : ConvArg T → Prop
  | .none => True
  | .one _ => True
  | .list l => l.length = fts.len ∧ l ≠ []
  | .dict d => DictFits fts d

/-- What the conversion is: the types as a list. -/
theorem convertObj_eq (K : TypeOps V T) {o : Obj V} (h : o.WF) {arg : ConvArg T} (hf : ArgFits o.fts arg) :
    ∃ l arg', l.length = o.fts.len ∧ (∀ (j : Nat), j < o.fts.len →
        (l[j]?).join = wantedType arg j (o.fts.getNames[j]?).join) ∧
      convertObj K o arg = (withData o (convEach K l o.data)).map (fun r => (r, arg')) := by
  have hsame : ∀ row ∈ o.data, row.length = o.fts.len := h.cols
  have hrep : ∀ (x : Option T) (j : Nat), j < o.fts.len → ((List.replicate o.fts.len x)[j]?).join = x := by
    intro x j hj
    rw [List.getElem?_replicate, if_pos hj]; rfl
  have hnone : withData o (convEach K (List.replicate o.fts.len none) o.data) = .ok o := by
    rw [convEach_none hsame]; rfl
  cases arg with
  | none =>
    refine ⟨List.replicate o.fts.len none, .none, by simp, fun j hj => by rw [hrep _ j hj]; rfl, ?_⟩
    rw [hnone]; rfl
  | one t =>
    refine ⟨List.replicate o.fts.len (some t), .one t, by simp, fun j hj => by rw [hrep _ j hj]; rfl, ?_⟩
    rw [← convAll_eq hsame]
    exact convertObj_one K o t
  | list l =>
    obtain ⟨hl, hne⟩ := hf
    refine ⟨l, .list l, hl, fun j hj => rfl, ?_⟩
    have : convList K o l = withData o (convEach K l o.data) := by
      unfold convList
      rw [if_neg (by simp [hl])]
      cases l with
      | nil => exact absurd rfl hne
      | cons x xs =>
        dsimp only
        by_cases hx : (xs.all fun y => decide (y = x)) = true
        · rw [if_pos hx]
          have e : x :: xs = List.replicate o.fts.len x := by
            rw [List.eq_replicate_iff]
            refine ⟨hl, ?_⟩
            intro y hy
            rcases List.mem_cons.1 hy with rfl | hy
            · rfl
            · exact of_decide_eq_true (List.all_eq_true.1 hx y hy)
          rw [e]
          cases x with
          | none => rw [hnone]
          | some t => rw [← convAll_eq hsame]
        · rw [if_neg hx]
    rw [convertObj_list, this]
  | dict d =>
    obtain ⟨l, d', e1, l1, l2, _⟩ := typesFromDict_ok h.fts hf
    refine ⟨l, .dict d', l1, l2, ?_⟩
    exact convertObj_dict e1

theorem argFits_of_ok {K : TypeOps V T} {o : Obj V} (h : o.WF) {arg : ConvArg T} {p : Obj V × ConvArg T}
    (hc : convertObj K o arg = .ok p) : ArgFits o.fts arg := by
  cases arg with
  | none => trivial
  | one t => trivial
  | list l =>
    rw [convertObj_list] at hc
    unfold convList at hc
    by_cases hl : l.length ≠ o.fts.len
    · rw [if_pos hl] at hc; cases hc
    · rw [if_neg hl] at hc
      refine ⟨by omega, ?_⟩
      rintro rfl
      cases hc
  | dict d =>
    by_contra hf
    rw [convertObj_dict_error (typesFromDict_refused h.fts hf)] at hc
    cases hc

/-- **C91 (what is converted).**  A `convertToType` conversion that succeeds changes no name and no dimension; every
element is its old value converted to the type the user asked for its feature, by one type for all, by the list, or by
index or name in the dictionary, and is the old value itself where none was asked for. -/
theorem C91_converted {K : TypeOps V T} {o : Obj V} (h : o.WF) {arg arg' : ConvArg T} {r : Obj V}
    (hc : convertObj K o arg = .ok (r, arg')) :
    r.WF ∧ r.pts = o.pts ∧ r.fts = o.fts ∧ ∀ (i j : Nat) v, o.elem? i j = some v →
      ∃ v', r.elem? i j = some v' ∧ Converted K (wantedType arg j (o.fts.getNames[j]?).join) v v' := by
  obtain ⟨l, a', hl, hw, e⟩ := convertObj_eq K h (argFits_of_ok h hc)
  rw [hc] at e
  cases hx : withData o (convEach K l o.data) with
  | error x => rw [hx] at e; cases e
  | ok r' =>
    rw [hx] at e
    cases e
    obtain ⟨g1, g2, g3, g4⟩ := withData_ok h hl hx
    refine ⟨g1, g2, g3, fun i j v hv => ?_⟩
    rw [← hw j (elem_bounds h hv).2]
    exact g4 i j v hv

/-- **C91 (what is accepted).**  The conversion succeeds exactly if the argument fits the features (a list: one entry per
feature, and there are features; a dictionary: index and name of a feature do not disagree, and every key is a feature,
or a negative index of an object with names) and every element converts. -/
theorem C91_accepted (K : TypeOps V T) {o : Obj V} (h : o.WF) (arg : ConvArg T) :
    (∃ p, convertObj K o arg = .ok p) ↔ ArgFits o.fts arg ∧
      ∀ (i j : Nat) v, o.elem? i j = some v →
        ∃ v', Converted K (wantedType arg j (o.fts.getNames[j]?).join) v v' := by
  constructor
  · rintro ⟨⟨r, a'⟩, hc⟩
    refine ⟨argFits_of_ok h hc, fun i j v hv => ?_⟩
    obtain ⟨v', _, g⟩ := (C91_converted h hc).2.2.2 i j v hv
    exact ⟨v', g⟩
  · rintro ⟨hf, hg⟩
    obtain ⟨l, a', hl, hw, e⟩ := convertObj_eq K h hf
    obtain ⟨r, hr⟩ := (withData_iff (K := K) h hl).2 (fun i j v hv => by
      rw [hw j (elem_bounds h hv).2]; exact hg i j v hv)
    exact ⟨_, by rw [e, hr]; rfl⟩

/-- **C91 (what is refused).**  An argument that does not fit is refused with `InvalidArgumentValue` (but see
`C91_empty_list_violated`), and so is a value whose conversion raises `ValueError` or `TypeError`. -/
theorem C91_refused (K : TypeOps V T) {o : Obj V} (h : o.WF) {arg : ConvArg T} {e : Err}
    (hc : convertObj K o arg = .error e) (hne : arg ≠ .list []) (he : ∀ t v x, K.conv t v = .error x → x = .ValueError ∨ x = .TypeError) :
    e = .InvalidArgumentValue := by
  by_cases hf : ArgFits o.fts arg
  · obtain ⟨l, a', hl, hw, g⟩ := convertObj_eq K h hf
    rw [hc] at g
    cases hx : withData o (convEach K l o.data) with
    | ok r => rw [hx] at g; cases g
    | error x =>
      rw [hx] at g
      have hex : e = x := by cases g; rfl
      subst hex
      unfold withData at hx
      cases hy : convEach K l o.data with
      | ok r => rw [hy] at hx; cases hx
      | error y =>
        rw [hy] at hx
        cases hx
        obtain ⟨row, _, h1⟩ := mapRes_error hy
        obtain ⟨p, _, h2⟩ := mapRes_error h1
        unfold convValue at h2
        split at h2
        · cases h2
        · split at h2
          · cases h2
          · next t v hh =>
            cases hz : K.conv t p.1 with
            | ok w => rw [hz] at h2; cases h2
            | error z =>
              rw [hz] at h2
              rcases he _ _ _ hz with rfl | rfl <;> (cases h2; rfl)
  · cases arg with
    | none => exact absurd trivial hf
    | one t => exact absurd trivial hf
    | list l =>
      have hl : l.length ≠ o.fts.len := by
        intro hl
        exact hf ⟨hl, fun hh => hne (by rw [hh])⟩
      rw [convertObj_list] at hc
      unfold convList at hc
      rw [if_pos hl] at hc
      cases hc; rfl
    | dict d =>
      rw [convertObj_dict_error (typesFromDict_refused h.fts hf)] at hc
      cases hc; rfl

/-! ## `nimble.data` -/

/-- **C91 (`nimble.data`).**  With explicit names or none: the elements of the object are the given values, each converted
to the type asked for its feature. -/
theorem C91_nimble_data {C : CellOps V} {K : TypeOps V T} {rows : List (List V)} {n : Nat} (hn : 0 < n)
    (hne : rows ≠ []) (hr : ∀ r ∈ rows, r.length = n) {pn fn : NamesArg}
    (hpa : pn ≠ .auto ∧ pn ≠ .yes) (hfa : fn ≠ .auto ∧ fn ≠ .yes)
    (hp : goodNames rows.length pn.explicit) (hf : goodNames n fn.explicit) {arg arg' : ConvArg T} {r : Obj V}
    (hc : nimbleDataConv C K pn fn arg true rows = .ok (r, arg')) :
    r.WF ∧ r.pts.len = rows.length ∧ r.fts.len = n ∧
      r.pts.getNames = pn.explicit.getD (List.replicate rows.length none) ∧
      r.fts.getNames = fn.explicit.getD (List.replicate n none) ∧
      ∀ (i j : Nat) v, (rows[i]?).bind (·[j]?) = some v →
        ∃ v', r.elem? i j = some v' ∧ Converted K (wantedType arg j (r.fts.getNames[j]?).join) (C.stored v) v' := by
  obtain ⟨o, ho, hh⟩ := C53_data_explicit C hn hne hr hpa hfa hp hf
  unfold nimbleDataConv at hc
  simp only [if_true, ho, bind, Except.bind] at hc
  cases hx : convertObj K o arg with
  | error e => rw [hx] at hc; cases hc
  | ok p =>
    rw [hx] at hc
    cases hc
    obtain ⟨g1, g2, g3, g4⟩ := C91_converted hh.wf hx
    refine ⟨g1, ?_, ?_, ?_, ?_, ?_⟩
    · rw [g2, ← hh.wf.rows, hh.data]; simp
    · rw [g3]; exact hh.fts
    · rw [g2]; have := hh.pnames; simpa using this
    · rw [g3]; exact hh.fnames
    · intro i j v hv
      rw [g3]
      refine g4 i j (C.stored v) ?_
      unfold Obj.elem?
      rw [hh.data, List.getElem?_map]
      cases hrow : rows[i]? with
      | none => rw [hrow] at hv; cases hv
      | some row =>
        rw [hrow] at hv
        have hv' : row[j]? = some v := hv
        simp only [Option.map_some, Option.bind_some, List.getElem?_map, hv']

/-- **C91 violated: `rowsArePoints=False`.**  For every source whose rows are features the types are applied before the
object is turned: what the user says about feature `j` is done to *point* `j` of the result. -/
theorem C91_rows_are_features_violated {C : CellOps V} {K : TypeOps V T} {rows : List (List V)} {n : Nat} (hn : 0 < n)
    (hne : rows ≠ []) (hr : ∀ r ∈ rows, r.length = n) {pn fn : NamesArg}
    (hpa : pn ≠ .auto ∧ pn ≠ .yes) (hfa : fn ≠ .auto ∧ fn ≠ .yes)
    (hp : goodNames n pn.explicit) (hf : goodNames rows.length fn.explicit) {arg arg' : ConvArg T} {r : Obj V}
    (hc : nimbleDataConv C K pn fn arg false rows = .ok (r, arg')) :
    r.WF ∧ r.pts.len = n ∧ r.fts.len = rows.length ∧
      ∀ (i j : Nat) v, (rows[i]?).bind (·[j]?) = some v →
        ∃ v', r.elem? j i = some v' ∧ Converted K (wantedType arg j (r.pts.getNames[j]?).join) (C.stored v) v' := by
  obtain ⟨o, ho, hh⟩ := C53_data_explicit C hn hne hr hfa hpa hf hp
  unfold nimbleDataConv at hc
  simp only [Bool.false_eq_true, if_false, ho, bind, Except.bind] at hc
  cases hx : convertObj K o arg with
  | error e => rw [hx] at hc; cases hc
  | ok p =>
    rw [hx] at hc
    obtain ⟨g1, g2, g3, g4⟩ := C91_converted hh.wf hx
    obtain ⟨q, e1, e2, e3, e4, e5, e6, e7⟩ := Nimble.C13_transpose_swaps g1
    simp only [turnedLast, Bool.false_eq_true, if_false, e1, bind, Except.bind, pure, Except.pure] at hc
    cases hc
    have hpl : p.1.pts.len = rows.length := by rw [g2, ← hh.wf.rows, hh.data]; simp
    refine ⟨e2, ?_, ?_, ?_⟩
    · rw [e3, g3]; exact hh.fts
    · rw [e4]; exact hpl
    · intro i j v hv
      have hel : o.elem? i j = some (C.stored v) := by
        unfold Obj.elem?
        rw [hh.data, List.getElem?_map]
        cases hrow : rows[i]? with
        | none => rw [hrow] at hv; cases hv
        | some row =>
          rw [hrow] at hv
          have hv' : row[j]? = some v := hv
          simp only [Option.map_some, Option.bind_some, List.getElem?_map, hv']
      obtain ⟨b1, b2⟩ := elem_bounds hh.wf hel
      obtain ⟨v', f1, f2⟩ := g4 i j _ hel
      rw [e6, g3]
      exact ⟨v', by rw [e5 i j (by rw [g2]; exact b1) (by rw [g3]; exact b2)]; exact f1, f2⟩

/-! ## The dictionary is the caller's -/

theorem convLoop_idle : ∀ (ns : List (Option String)) (d : PyDict ConvKey (Option T)) (i : Nat),
    (∀ key, AddressesOne key i ns → PyDict.get? d key = none) →
    convLoop d i ns = .ok (List.replicate ns.length none, d) := by
  intro ns
  induction ns with
  | nil => intro d i _; rfl
  | cons n ns ih =>
    intro d i h
    have h1 : PyDict.get? d (.idx i) = none := h _ (addressesOne_cons.2 (Or.inl (Or.inl rfl)))
    have h2 : typeByName d n = none := by
      cases n with
      | none => rfl
      | some s => exact h _ (addressesOne_cons.2 (Or.inl (Or.inr ⟨s, rfl, rfl⟩)))
    have hr : convRound d i n = .ok (none, d) := by
      unfold convRound
      simp only [h1, h2]
    have := ih d (i + 1) (fun key hk => h key (addressesOne_cons.2 (Or.inr hk)))
    simp only [convLoop, hr, this, bind, Except.bind, pure, Except.pure, List.length_cons, List.replicate_succ]

theorem convertObj_idle (K : TypeOps V T) {o : Obj V} (h : o.WF) {d : PyDict ConvKey (Option T)}
    (hf : DictFits o.fts d) (hk : ∀ key, Known o.fts key → PyDict.get? d key = none) :
    convertObj K o (.dict d) = .ok (o, .dict d) := by
  obtain ⟨l, d', e1, _, _, _⟩ := typesFromDict_ok h.fts hf
  have e2 := convLoop_idle o.fts.getNames d 0 (fun key hh => hk key ((known_iff h.fts).1 hh))
  rw [h.fts.length_getNames] at e2
  have e3 : typesFromDict d o.fts = .ok (List.replicate o.fts.len none, d) := by
    unfold typesFromDict at e1 ⊢
    simp only [e2, bind, Except.bind, pure, Except.pure] at e1 ⊢
    by_cases hall : ((PyDict.keys d).all (leftoverOk o.fts.getNamesNoGen)) = true
    · rw [if_pos hall]
    · rw [if_neg hall] at e1; cases e1
  rw [convertObj_dict e3]
  show (withData o (convEach K (List.replicate o.fts.len none) o.data)).map _ = _
  rw [convEach_none h.cols]; rfl

/-- **C91 violated: the dictionary is used up.**  The caller's own dictionary loses every key that named a feature: for
every object and every dictionary, a second call with the same dictionary object converts nothing and raises nothing. -/
theorem C91_dictionary_used_up_violated {K : TypeOps V T} {o r : Obj V} (h : o.WF)
    {d : PyDict ConvKey (Option T)} {arg' : ConvArg T} (hc : convertObj K o (.dict d) = .ok (r, arg')) :
    (∃ d', arg' = .dict d' ∧ ∀ key, Known o.fts key → key ∉ PyDict.keys d') ∧
      convertObj K o arg' = .ok (o, arg') := by
  have hf : DictFits o.fts d := argFits_of_ok h hc
  obtain ⟨l, d', e1, _, _, l3⟩ := typesFromDict_ok h.fts hf
  have ha : arg' = .dict d' := by
    rw [convertObj_dict e1] at hc
    cases hx : withData o (convEach K l o.data) with
    | error x =>
      have : (withData o (convEach K (l, d').1 o.data)) = .error x := hx
      rw [this] at hc; cases hc
    | ok y =>
      have : (withData o (convEach K (l, d').1 o.data)) = .ok y := hx
      rw [this] at hc; cases hc; rfl
  subst ha
  refine ⟨⟨d', rfl, fun key hk hm => ?_⟩, convertObj_idle K h ⟨?_, ?_⟩ (fun key hk => (l3 key).1 hk)⟩
  · have := PyDict.mem_keys.1 hm
    rw [(l3 key).1 hk] at this; cases this
  · intro j n hj s x y hs hx hy
    have : Known o.fts (.idx (j : Int)) := (known_iff h.fts).1 ⟨j, n, hj, Or.inl (by simp)⟩
    rw [(l3 _).1 this] at hx; cases hx
  · intro key hm
    have hs := PyDict.mem_keys.1 hm
    by_cases hk : Known o.fts key
    · rw [(l3 key).1 hk] at hs; cases hs
    · rw [(l3 key).2 hk] at hs
      exact hf.2 key (PyDict.mem_keys.2 hs)

/-- **C91 violated: negative indices.**  A negative index is no feature for `convertToType`: if the features have names
it is passed over without a word, otherwise the call is refused. -/
theorem C91_negative_index_violated (K : TypeOps V T) {o : Obj V} (h : o.WF) {i : Int} (hi : i < 0) (t : T) :
    (o.fts.tbl ≠ none → convertObj K o (.dict [(.idx i, some t)]) = .ok (o, .dict [(.idx i, some t)])) ∧
      (o.fts.tbl = none → convertObj K o (.dict [(.idx i, some t)]) = .error .InvalidArgumentValue) := by
  have hg : ∀ key, key ≠ .idx i → PyDict.get? [(ConvKey.idx i, some t)] key = none := by
    intro key hk
    have : (ConvKey.idx i == key) = false := by simpa using (fun e => hk e.symm)
    simpa [PyDict.get?, this] using (fun e => hk e.symm)
  constructor
  · intro ht
    refine convertObj_idle K h ⟨?_, ?_⟩ ?_
    · intro j n _ s x y _ hx _
      rw [hg _ (by intro e; injection e; omega)] at hx
      cases hx
    · intro key hk
      refine Or.inr ⟨ht, i, ?_, hi⟩
      simpa [PyDict.keys] using hk
    · intro key hk
      apply hg
      rintro rfl
      have := hk.1
      omega
  · intro ht
    apply convertObj_dict_error
    apply typesFromDict_refused h.fts
    intro hf
    rcases hf.2 (.idx i) (by simp [PyDict.keys]) with hh | ⟨hh, _⟩
    · have := hh.1; omega
    · exact hh ht

/-- **C91 violated: no features.**  For an object without features the list with one type per feature is an
`IndexError`. -/
theorem C91_empty_list_violated (K : TypeOps V T) {o : Obj V} (h : o.fts.len = 0) :
    convertObj K o (.list []) = .error .IndexError := by
  rw [convertObj_list]
  unfold convList
  rw [if_neg (by simp [h])]
  rfl

omit [DecidableEq T] in
/-- **C91 violated: `Sparse`.**  Only the stored entries are converted: no coordinate is added, so a value that is not
stored stays the zero it was, whatever the type would make of a zero (a string, a date). -/
theorem C91_sparse_stored_only_violated {K : TypeOps V T} {t : T} {c r : Sp.Coo V}
    (h : convStored K t c = .ok r) :
    r.rows = c.rows ∧ r.cols = c.cols ∧
      List.Forall₂ (fun e e' => e'.row = e.row ∧ e'.col = e.col ∧ Converted K (some t) e.val e'.val) c.ents r.ents := by
  unfold convStored at h
  simp only [bind, Except.bind, pure, Except.pure] at h
  cases hm : mapRes (fun (e : Sp.Ent V) => (convValue K (some t) e.val).map (fun v => { e with val := v })) c.ents with
  | error x => rw [hm] at h; cases h
  | ok ents =>
    rw [hm] at h
    cases h
    refine ⟨rfl, rfl, ?_⟩
    rw [Sources.mapRes_forall₂] at hm
    refine hm.imp ?_
    intro e e' he
    cases hv : convValue K (some t) e.val with
    | error x => rw [hv] at he; cases he
    | ok v =>
      rw [hv] at he
      cases he
      exact ⟨rfl, rfl, convValue_ok.1 hv⟩

/-! ## Concrete cases -/

/-- `str`, `object`, and an `int` that knows two texts. -/
inductive Ty where
  | str
  | int
  | obj
  deriving DecidableEq

def tyOps : TypeOps Cell Ty where
  conv t v := match t, v with
    | .str, .num i => .ok (.str (toString i))
    | .str, .nan => .ok (.str "nan")
    | .str, v => .ok v
    | .int, .str s => if s = "2" then .ok (.num 2) else if s = "4" then .ok (.num 4) else .error .ValueError
    | .int, .num i => .ok (.num i)
    | .int, .nan => .error .ValueError
    | .obj, v => .ok v
  isObject t := decide (t = .obj)

/-- An ordinary call: the named feature is converted, the other is left alone, and the dictionary is empty afterwards. -/
example : nimbleDataConv (cellOps .nan) tyOps .no (.given [some "a", some "b"]) (.dict [(.name "b", some .int)]) true
      [[.str "1", .str "2"], [.str "3", .str "4"]] =
    .ok (⟨[[.str "1", .num 2], [.str "3", .num 4]], ⟨2, none⟩, ⟨2, some ⟨[("a", 0), ("b", 1)], [some "a", some "b"]⟩⟩⟩, .dict []) := by
  decide +kernel

/-- The same rows as features: what was said of feature `b` is refused, … -/
theorem C91_rows_are_features_refused_violated :
    nimbleDataConv (cellOps .nan) tyOps .no (.given [some "a", some "b"]) (.dict [(.name "b", some .int)]) false
      [[.str "1", .str "2"], [.str "3", .str "4"]] = .error .InvalidArgumentValue ∧
    -- … and index 1 converts the second point of the result
    (nimbleDataConv (cellOps .nan) tyOps .no (.given [some "a", some "b"]) (.dict [(.idx 1, some .int)]) false
      [[.str "1", .str "2"], [.str "3", .str "4"]]).map (fun p => p.1.data) =
      .ok [[.str "1", .str "3"], [.num 2, .num 4]] := by
  constructor <;> decide +kernel

end Nimble.ConvType
