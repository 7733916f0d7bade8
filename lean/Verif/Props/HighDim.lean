import Verif.Model.HighDim
import Verif.Props.Create
import Verif.Props.Structural
import Verif.Props.Insert
import Verif.Props.Flatten
import Verif.Props.Identical
import Verif.Props.GetItem

/-!
# C88 – data with more than two dimensions

Specification: nested lists have a shape (`HasShape`) and an element at every path of indices
(`Nest.at`); an object of more than two dimensions has the element `HObj.at` at a path, which lies in
the row of its first index at the row-major position of the others (`ravel`).
-/

namespace Nimble
variable {V : Type}

/-- The item at a path of indices: `data[i][j]...`. -/
def Nest.at : Nest V → List Nat → Option V
  | .leaf v, [] => some v
  | .node cs, i :: p => (cs[i]?).bind (fun c => c.at p)
  | _, _ => none

/-- Rectangular nested lists of the given dimensions. -/
def HasShape : List Nat → Nest V → Prop
  | [], .leaf _ => True
  | d :: ds, .node cs => cs.length = d ∧ ∀ c ∈ cs, HasShape ds c
  | _, _ => False

/-- The row-major position of a path in an array of the given dimensions. -/
def ravel : List Nat → List Nat → Option Nat
  | [], [] => some 0
  | d :: ds, i :: p => if i < d then (ravel ds p).map (fun k => i * ds.prod + k) else none
  | _, _ => none

/-- The element of an object at a path of indices. -/
def HObj.at (h : HObj V) : List Nat → Option V
  | i :: p => (ravel h.dims.tail p).bind (fun k => h.obj.elem? i k)
  | [] => none

/-- The invariant: the data fits the dimensions. -/
structure HObj.WF (h : HObj V) : Prop where
  obj : h.obj.WF
  len : 2 ≤ h.dims.length
  pts : h.dims.head? = some h.obj.pts.len
  fts : h.dims.tail.prod = h.obj.fts.len

/-! ## Positions -/

theorem ravel_lt : ∀ {ds p : List Nat} {k : Nat}, ravel ds p = some k → k < ds.prod
  | [], [], k, h => by simp [ravel] at h; simp [← h]
  | [], _ :: _, _, h => by simp [ravel] at h
  | _ :: _, [], _, h => by simp [ravel] at h
  | d :: ds, i :: p, k, h => by
    unfold ravel at h
    split at h
    · next hi =>
      cases hk : ravel ds p with
      | none => simp [hk] at h
      | some m =>
        rw [hk] at h
        simp at h
        have := ravel_lt hk
        rw [List.prod_cons]
        calc k = i * ds.prod + m := h.symm
          _ < i * ds.prod + ds.prod := by omega
          _ = (i + 1) * ds.prod := by rw [Nat.add_mul, Nat.one_mul]
          _ ≤ d * ds.prod := Nat.mul_le_mul_right _ hi
    · simp at h

theorem HObj.WF.dims_eq {h : HObj V} (w : h.WF) : h.dims = h.obj.pts.len :: h.dims.tail := by
  have := w.pts
  cases hd : h.dims with
  | nil => rw [hd] at this; simp at this
  | cons a l => rw [hd] at this; simp at this; simp [this]

/-! ## Creation -/

theorem leaves_of_shape {d : Nat} : ∀ {cs : List (Nest V)}, (∀ c ∈ cs, HasShape [] c) →
    ∃ vs, leaves cs = some vs ∧ vs.length = cs.length ∧ ∀ i : Nat, vs[i]? = (cs[i]?).bind (fun c => c.at [])
  | [], _ => ⟨[], rfl, rfl, by simp⟩
  | .leaf v :: cs, h => by
    obtain ⟨vs, h1, h2, h3⟩ := leaves_of_shape (d := d) (cs := cs) (fun c hc => h c (by simp [hc]))
    refine ⟨v :: vs, by simp [leaves, h1], by simp [h2], ?_⟩
    intro i
    cases i with
    | zero => simp [Nest.at]
    | succ i => simpa using h3 i
  | .node x :: cs, h => by have := h (.node x) (by simp); simp [HasShape] at this

theorem leaves_none {cs : List (Nest V)} {d : Nat} {ds : List Nat} (hne : cs ≠ [])
    (h : ∀ c ∈ cs, HasShape (d :: ds) c) : leaves cs = none := by
  cases cs with
  | nil => exact absurd rfl hne
  | cons c cs =>
    have := h c (by simp)
    cases c with
    | leaf v => simp [HasShape] at this
    | node x => rfl

theorem at_leaf_path (v : V) (p : List Nat) (hp : p ≠ []) : (Nest.leaf v).at p = none := by
  cases p with
  | nil => exact absurd rfl hp
  | cons => rfl

/-- What flattening one nested list of shape `ds` does. -/
def FlatSpec (chars : V → Option (List V)) (ds : List Nat) (n : Nest V) : Prop :=
  ∀ s : Flat V, ∃ t vs, flatten1 chars n s = .ok t ∧ t.fill = s.fill ++ vs ∧
    t.dims = (if s.first then s.dims ++ ds else s.dims) ∧ vs.length = ds.prod ∧
    ∀ p, n.at p = (ravel ds p).bind (fun (k : Nat) => vs[k]?)

theorem flattenAll_spec (chars : V → Option (List V)) {ds : List Nat} :
    ∀ (cs : List (Nest V)), (∀ c ∈ cs, FlatSpec chars ds c) → ∀ s : Flat V,
    ∃ t vs, flattenAll chars cs s = .ok t ∧ t.fill = s.fill ++ vs ∧
      t.dims = (if s.first = true ∧ cs ≠ [] then s.dims ++ ds else s.dims) ∧
      vs.length = cs.length * ds.prod ∧
      ∀ i p, i < cs.length → (cs[i]?).bind (fun c => c.at p) =
        (ravel ds p).bind (fun (k : Nat) => vs[i * ds.prod + k]?)
  | [], _, s => ⟨s, [], by simp [flattenAll], by simp, by simp, by simp, by simp⟩
  | c :: cs, h, s => by
    obtain ⟨t, vs, h1, h2, h3, h4, h5⟩ := h c (by simp) s
    obtain ⟨t', vs', g1, g2, g3, g4, g5⟩ := flattenAll_spec chars cs (fun c hc => h c (by simp [hc]))
      { t with first := false }
    refine ⟨t', vs ++ vs', by simp only [flattenAll, h1, Except.bind, g1], ?_, ?_, ?_, ?_⟩
    · rw [g2, h2, List.append_assoc]
    · rw [g3]
      simp [h3]
    · simp [h4, g4, Nat.add_mul, Nat.add_comm]
    · intro i p hi
      cases i with
      | zero =>
        simp only [List.getElem?_cons_zero, Option.bind_some, Nat.zero_mul, Nat.zero_add]
        rw [h5 p]
        cases hk : ravel ds p with
        | none => rfl
        | some k =>
          have := ravel_lt hk
          simp only [Option.bind_some]
          rw [List.getElem?_append_left (by omega)]
      | succ i =>
        simp only [List.getElem?_cons_succ]
        rw [g5 i p (by simpa using hi)]
        cases hk : ravel ds p with
        | none => rfl
        | some k =>
          simp only [Option.bind_some]
          rw [List.getElem?_append_right (by rw [h4, Nat.add_mul]; omega), h4]
          congr 1
          rw [Nat.add_mul]; omega

theorem note_fill (s : Flat V) (n : Nat) : (s.note n).fill = s.fill := by
  unfold Flat.note; split <;> rfl

theorem note_dims (s : Flat V) (n : Nat) :
    (s.note n).dims = if s.first then s.dims ++ [n] else s.dims := by
  unfold Flat.note; split <;> rfl

theorem note_first (s : Flat V) (n : Nat) : (s.note n).first = s.first := by
  unfold Flat.note; split <;> simp_all

theorem at_node (cs : List (Nest V)) {d : Nat} {ds : List Nat} (hd : cs.length = d) {vs : List V}
    (h : ∀ i p, i < cs.length → (cs[i]?).bind (fun c => c.at p) =
        (ravel ds p).bind (fun (k : Nat) => vs[i * ds.prod + k]?)) (p : List Nat) :
    (Nest.node cs).at p = (ravel (d :: ds) p).bind (fun (k : Nat) => vs[k]?) := by
  cases p with
  | nil => rfl
  | cons i p =>
    simp only [Nest.at, ravel]
    by_cases hi : i < d
    · rw [if_pos hi, h i p (by omega)]
      cases ravel ds p <;> rfl
    · rw [if_neg hi, List.getElem?_eq_none (by omega)]
      rfl

theorem flatten1_spec (chars : V → Option (List V)) : ∀ {ds : List Nat}, ds ≠ [] →
    (∀ d ∈ ds, 0 < d) → ∀ {n : Nest V}, HasShape ds n → FlatSpec chars ds n
  | [], h, _, _, _ => absurd rfl h
  | [d], _, _, .leaf _, hs => by simp [HasShape] at hs
  | [d], _, _, .node cs, hs => by
    obtain ⟨h1, h2⟩ := hs
    obtain ⟨vs, k1, k2, k3⟩ := leaves_of_shape (d := d) h2
    intro s
    refine ⟨_, vs, by simp only [flatten1, k1]; rfl, rfl, ?_, by simp [k2, h1], ?_⟩
    · show (s.note cs.length).dims = _
      rw [note_dims, h1]
    · refine at_node cs h1 ?_
      intro i p hi
      cases p with
      | nil => rw [← k3 i]; simp [ravel]
      | cons j p =>
        have : HasShape [] cs[i] := h2 _ (List.getElem_mem hi)
        rw [List.getElem?_eq_getElem hi]
        simp only [Option.bind_some, ravel, Option.bind_none]
        cases hc : cs[i] with
        | leaf v => rfl
        | node x => rw [hc] at this; simp [HasShape] at this
  | d :: d' :: ds, _, _, .leaf _, hs => by simp [HasShape] at hs
  | d :: d' :: ds, _, hp, .node cs, hs => by
    obtain ⟨h1, h2⟩ := hs
    have hne : cs ≠ [] := by
      intro e; have := hp d (by simp); rw [e] at h1; simp at h1; omega
    have ih : ∀ c ∈ cs, FlatSpec chars (d' :: ds) c := fun c hc =>
      flatten1_spec chars (by simp) (fun x hx => hp x (by simp [hx])) (h2 c hc)
    intro s
    obtain ⟨t, vs, g1, g2, g3, g4, g5⟩ := flattenAll_spec chars cs ih (s.note cs.length)
    refine ⟨t, vs, ?_, ?_, ?_, ?_, ?_⟩
    · simp only [flatten1, leaves_none hne h2, g1, typeAsValue]
    · rw [g2, note_fill]
    · rw [g3, note_dims, note_first, h1]
      cases s.first <;> simp [hne]
    · rw [g4, h1, List.prod_cons (a := d)]
    · exact at_node cs h1 g5

theorem flattenPoint_spec (chars : V → Option (List V)) {ds : List Nat} (hne : ds ≠ [])
    (hp : ∀ d ∈ ds, 0 < d) {n : Nest V} (hs : HasShape ds n) :
    ∃ vs, flattenPoint chars n = .ok (vs, ds) ∧ vs.length = ds.prod ∧
      ∀ p, n.at p = (ravel ds p).bind (fun (k : Nat) => vs[k]?) := by
  obtain ⟨t, vs, h1, h2, h3, h4, h5⟩ := flatten1_spec chars hne hp hs ⟨[], true, []⟩
  refine ⟨vs, ?_, h4, h5⟩
  simp only [flattenPoint, h1, Except.map]
  simp at h2 h3
  rw [h2, h3]

theorem nextRow_spec (chars : V → Option (List V)) {ds : List Nat} (hne : ds ≠ [])
    (hp : ∀ d ∈ ds, 0 < d) {n : Nest V} (hs : HasShape ds n) :
    ∃ vs, nextRow chars ds.prod ds n = .ok vs ∧ vs.length = ds.prod ∧
      ∀ p, n.at p = (ravel ds p).bind (fun (k : Nat) => vs[k]?) := by
  obtain ⟨vs, h1, h2, h3⟩ := flattenPoint_spec chars hne hp hs
  refine ⟨vs, ?_, h2, h3⟩
  simp [nextRow, h1, bind, Except.bind, assignRow, h2]

theorem nextRows_spec (chars : V → Option (List V)) {ds : List Nat} (hne : ds ≠ [])
    (hp : ∀ d ∈ ds, 0 < d) : ∀ {cs : List (Nest V)}, (∀ c ∈ cs, HasShape ds c) →
    ∃ rows, mapRes (nextRow chars ds.prod ds) cs = .ok rows ∧ rows.length = cs.length ∧
      (∀ r ∈ rows, r.length = ds.prod) ∧
      ∀ (i : Nat) p, (cs[i]?).bind (fun c => c.at p) =
        (ravel ds p).bind (fun (k : Nat) => (rows[i]?).bind (fun r => r[k]?))
  | [], _ => ⟨[], rfl, rfl, by simp, by intro i p; cases ravel ds p <;> simp⟩
  | c :: cs, h => by
    obtain ⟨vs, h1, h2, h3⟩ := nextRow_spec chars hne hp (h c (by simp))
    obtain ⟨rows, g1, g2, g3, g4⟩ := nextRows_spec chars hne hp (cs := cs)
      (fun c hc => h c (by simp [hc]))
    refine ⟨vs :: rows, by simp [mapRes, h1, g1, bind, Except.bind, pure, Except.pure], by simp [g2],
      ?_, ?_⟩
    · intro r hr
      rcases List.mem_cons.1 hr with rfl | hr
      · exact h2
      · exact g3 r hr
    · intro i p
      cases i with
      | zero => simpa using h3 p
      | succ i => simpa using g4 i p

theorem flattenHigh_spec (chars : V → Option (List V)) {n : Nat} {ds : List Nat} (hne : ds ≠ [])
    (hn : 0 < n) (hp : ∀ d ∈ ds, 0 < d) {data : List (Nest V)} (hl : data.length = n)
    (hs : ∀ c ∈ data, HasShape ds c) :
    ∃ rows, flattenHigh chars data = .ok (rows, n :: ds) ∧ rows.length = n ∧
      (∀ r ∈ rows, r.length = ds.prod) ∧
      ∀ (i : Nat) p, (data[i]?).bind (fun c => c.at p) =
        (ravel ds p).bind (fun (k : Nat) => (rows[i]?).bind (fun r => r[k]?)) := by
  cases data with
  | nil => simp at hl; omega
  | cons c cs =>
    obtain ⟨vs, h1, h2, h3⟩ := flattenPoint_spec chars hne hp (hs c (by simp))
    obtain ⟨rows, g1, g2, g3, g4⟩ := nextRows_spec chars hne hp (cs := cs)
      (fun c hc => hs c (by simp [hc]))
    refine ⟨vs :: rows, ?_, by simp [g2, ← hl], ?_, ?_⟩
    · simp only [flattenHigh, h1, bind, Except.bind, h2, g1, pure, Except.pure]
      rw [← hl]; rfl
    · intro r hr
      rcases List.mem_cons.1 hr with rfl | hr
      · exact h2
      · exact g3 r hr
    · intro i p
      cases i with
      | zero => simpa using h3 p
      | succ i => simpa using g4 i p

/-- What is stored for a value: missing ones are replaced. -/
theorem replaceMissing_elem (C : CellOps V) (rows : List (List V)) (i k : Nat) :
    ((replaceMissing C rows)[i]?).bind (fun r => r[k]?) =
      ((rows[i]?).bind (fun r => r[k]?)).map (fun v => if C.missing v then C.nan else v) := by
  simp only [replaceMissing, List.getElem?_map]
  cases rows[i]? <;> simp

/-- The `pointNames`/`featureNames` arguments that are neither refused nor detected. -/
def NamesArg.high : NamesArg → Option (List (Option String))
  | .given l => some l
  | _ => none

/-- C88. `nimble.data` of rectangular nested lists of three or more dimensions succeeds when the
names fit: the object has the dimensions of the data and at every path of indices exactly the value
that was given there (a missing value replaced). -/
theorem C88_create (C : CellOps V) (chars : V → Option (List V)) {n : Nat} {ds : List Nat}
    {data : List (Nest V)} (hd : 2 ≤ ds.length) (hpos : ∀ d ∈ n :: ds, 0 < d)
    (hs : HasShape (n :: ds) (.node data)) {pn fn : NamesArg} (hpn : pn ≠ .yes) (hfn : fn ≠ .yes)
    (hp : goodNames n pn.high) (hf : goodNames ds.prod fn.high) :
    isHighDim data = true ∧
    ∃ h, highData C chars pn fn data = .ok h ∧ h.WF ∧ h.dims = n :: ds ∧
      (∀ p, h.at p = ((Nest.node data).at p).map (fun v => if C.missing v then C.nan else v)) ∧
      h.obj.pts.getNames = pn.high.getD (List.replicate n none) ∧
      h.obj.fts.getNames = fn.high.getD (List.replicate ds.prod none) := by
  obtain ⟨h1, h2⟩ := hs
  have hne : ds ≠ [] := by intro e; simp [e] at hd
  have hn : 0 < n := hpos n (by simp)
  refine ⟨?_, ?_⟩
  · match ds, data, hd, hpos, h1, h2 with
    | d :: d' :: ds, c :: cs, _, hpos, h1, h2 =>
      have := h2 c (by simp)
      cases c with
      | leaf v => simp [HasShape] at this
      | node x =>
        obtain ⟨k1, k2⟩ := this
        cases x with
        | nil => have := hpos d (by simp); simp at k1; omega
        | cons y ys =>
          have := k2 y (by simp)
          cases y with
          | leaf v => simp [HasShape] at this
          | node _ => rfl
    | _ :: _ :: _, [], _, _, h1, _ => simp at h1; omega
  · obtain ⟨rows, g1, g2, g3, g4⟩ := flattenHigh_spec chars hne hn
      (fun d h => hpos d (by simp [h])) h1 h2
    obtain ⟨a, ha, hal, hao, han⟩ := init_good hp
    obtain ⟨b, hb, hbl, hbo, hbn⟩ := init_good hf
    have e1 : highNames pn = .ok pn.high := by cases pn <;> simp_all [highNames, NamesArg.high]
    have e2 : highNames fn = .ok fn.high := by cases fn <;> simp_all [highNames, NamesArg.high]
    refine ⟨⟨n :: ds, ⟨replaceMissing C rows, a, b⟩⟩, ?_, ⟨⟨?_, ?_, hao, hbo⟩, ?_, ?_, ?_⟩, rfl, ?_, han, hbn⟩
    · simp only [highData, e1, e2, g1, bind, Except.bind, pure, Except.pure, Obj.make, List.headD_cons,
        List.tail_cons, ha, hb]
    · simp [replaceMissing, g2, hal]
    · intro r hr
      simp only [replaceMissing, List.mem_map] at hr
      obtain ⟨r0, hr0, rfl⟩ := hr
      simp [g3 r0 hr0, hbl]
    · simp; omega
    · simp [hal]
    · simp [hbl]
    · intro p
      cases p with
      | nil => rfl
      | cons i p =>
        simp only [HObj.at, Nest.at, List.tail_cons, Obj.elem?]
        rw [g4 i p]
        cases ravel ds p with
        | none => rfl
        | some k =>
          simp only [Option.bind_some]
          exact replaceMissing_elem C rows i k

theorem nextRow_dims {chars : V → Option (List V)} {n : Nat} {ds : List Nat} {p : Nest V}
    {r : List V} (h : nextRow chars n ds p = .ok r) : ∃ vs, flattenPoint chars p = .ok (vs, ds) := by
  simp only [nextRow, bind, Except.bind] at h
  cases hp : flattenPoint chars p with
  | error e => rw [hp] at h; simp at h
  | ok x =>
    rw [hp] at h
    dsimp only at h
    split at h
    · next he => exact ⟨x.1, by rw [← he]⟩
    · simp at h

theorem mapRes_mem {A B : Type} {f : A → Res B} : ∀ {l : List A} {bs : List B},
    mapRes f l = .ok bs → ∀ a ∈ l, ∃ b, f a = .ok b
  | [], _, _, a, ha => by simp at ha
  | x :: xs, bs, h, a, ha => by
    simp only [mapRes, bind, Except.bind, pure, Except.pure] at h
    cases hx : f x with
    | error e => rw [hx] at h; simp at h
    | ok b =>
      rw [hx] at h; dsimp only at h
      cases hm : mapRes f xs with
      | error e => rw [hm] at h; simp at h
      | ok bs' =>
        rcases List.mem_cons.1 ha with rfl | ha
        · exact ⟨b, hx⟩
        · exact mapRes_mem hm a ha

/-- Every accepted point was found to have the dimensions of the object. -/
theorem flattenHigh_dims {chars : V → Option (List V)} {data : List (Nest V)}
    {x : List (List V) × List Nat} (h : flattenHigh chars data = .ok x) :
    x.2.head? = some data.length ∧ ∀ p ∈ data, ∃ vs, flattenPoint chars p = .ok (vs, x.2.tail) := by
  cases data with
  | nil => simp [flattenHigh] at h
  | cons p ps =>
    simp only [flattenHigh, bind, Except.bind, pure, Except.pure] at h
    cases hp : flattenPoint chars p with
    | error e => rw [hp] at h; simp at h
    | ok y =>
      rw [hp] at h; dsimp only at h
      cases hm : mapRes (nextRow chars y.1.length y.2) ps with
      | error e => rw [hm] at h; simp at h
      | ok rows =>
        rw [hm] at h; dsimp only at h
        cases h
        refine ⟨by simp, ?_⟩
        intro q hq
        rcases List.mem_cons.1 hq with rfl | hq
        · exact ⟨y.1, hp⟩
        · obtain ⟨r, hr⟩ := mapRes_mem hm q hq
          exact nextRow_dims hr

theorem highData_ok {C : CellOps V} {chars : V → Option (List V)} {pn fn : NamesArg}
    {data : List (Nest V)} {h : HObj V} (hr : highData C chars pn fn data = .ok h) :
    ∃ x p f, highNames pn = .ok p ∧ highNames fn = .ok f ∧ flattenHigh chars data = .ok x ∧
      Obj.make (replaceMissing C x.1) (x.2.headD 0) x.2.tail.prod p f = .ok h.obj ∧ h.dims = x.2 := by
  simp only [highData, bind, Except.bind, pure, Except.pure] at hr
  cases h1 : highNames pn with
  | error e => rw [h1] at hr; simp at hr
  | ok p =>
    rw [h1] at hr; dsimp only at hr
    cases h2 : highNames fn with
    | error e => rw [h2] at hr; simp at hr
    | ok f =>
      rw [h2] at hr; dsimp only at hr
      cases h3 : flattenHigh chars data with
      | error e => rw [h3] at hr; simp at hr
      | ok x =>
        rw [h3] at hr; dsimp only at hr
        cases h4 : Obj.make (replaceMissing C x.1) (x.2.headD 0) x.2.tail.prod p f with
        | error e => rw [h4] at hr; simp at hr
        | ok o =>
          rw [h4] at hr; dsimp only at hr
          cases hr
          exact ⟨x, p, f, rfl, rfl, rfl, h4, rfl⟩

/-- C88. Data whose points have different dimensions is refused, in whatever place they are; so are
names that are to be taken from the data. -/
theorem C88_create_refused (C : CellOps V) (chars : V → Option (List V)) {pn fn : NamesArg}
    {data : List (Nest V)} :
    ((∃ p ∈ data, ∃ q ∈ data, ∃ ds es, ds ≠ [] ∧ es ≠ [] ∧ (∀ d ∈ ds, 0 < d) ∧ (∀ d ∈ es, 0 < d) ∧
        HasShape ds p ∧ HasShape es q ∧ ds ≠ es) ∨ pn = .yes ∨ fn = .yes) →
    ∃ e, highData C chars pn fn data = .error e := by
  intro hc
  cases hr : highData C chars pn fn data with
  | error e => exact ⟨e, rfl⟩
  | ok h =>
    exfalso
    obtain ⟨x, p', f', h1, h2, h3, -, -⟩ := highData_ok hr
    rcases hc with ⟨p, hp, q, hq, ds, es, hd, he, hdp, hep, sp, sq, hne⟩ | rfl | rfl
    · obtain ⟨-, hall⟩ := flattenHigh_dims h3
      obtain ⟨v1, k1⟩ := hall p hp
      obtain ⟨v2, k2⟩ := hall q hq
      obtain ⟨w1, l1, -⟩ := flattenPoint_spec chars hd hdp sp
      obtain ⟨w2, l2, -⟩ := flattenPoint_spec chars he hep sq
      rw [k1] at l1
      rw [k2] at l2
      cases l1; cases l2
      exact hne rfl
    · simp [highNames] at h1
    · simp [highNames] at h2

/-! ## Copy to nested lists -/

theorem take_drop_elem (l : List V) (a w k : Nat) (hk : k < w) :
    ((l.drop a).take w)[k]? = l[a + k]? := by
  rw [List.getElem?_take_of_lt hk, List.getElem?_drop]

theorem reshapeKids_at : ∀ {ds : List Nat}, ds ≠ [] → ∀ {l : List V}, l.length = ds.prod →
    HasShape ds (.node (reshapeKids ds l)) ∧
    ∀ p, (Nest.node (reshapeKids ds l)).at p = (ravel ds p).bind (fun (k : Nat) => l[k]?)
  | [], h, _, _ => absurd rfl h
  | [d], _, l, hl => by
    have hd : l.length = d := by simpa using hl
    refine ⟨⟨by simp [reshapeKids, hd], ?_⟩, ?_⟩
    · intro c hc
      simp only [reshapeKids, List.mem_map] at hc
      obtain ⟨v, -, rfl⟩ := hc
      trivial
    · refine at_node _ (by simp [reshapeKids, hd]) ?_
      intro i p hi
      simp only [reshapeKids, List.getElem?_map]
      cases p with
      | nil => cases hv : l[i]? <;> simp [ravel, Nest.at, hv]
      | cons j p => cases hv : l[i]? <;> simp [ravel, Nest.at]
  | d :: d' :: ds, _, l, hl => by
    rw [List.prod_cons (a := d)] at hl
    have hsub : ∀ i, i < d → ((l.drop (i * (d' :: ds).prod)).take (d' :: ds).prod).length
        = (d' :: ds).prod := by
      intro i hi
      have : (i + 1) * (d' :: ds).prod ≤ d * (d' :: ds).prod := Nat.mul_le_mul_right _ hi
      rw [Nat.add_mul, Nat.one_mul] at this
      rw [List.length_take, List.length_drop]; omega
    refine ⟨⟨by simp [reshapeKids], ?_⟩, ?_⟩
    · intro c hc
      simp only [reshapeKids, List.mem_map, List.mem_range] at hc
      obtain ⟨i, hi, rfl⟩ := hc
      exact (reshapeKids_at (by simp) (hsub i hi)).1
    · refine at_node _ (by simp [reshapeKids]) ?_
      intro i p hi
      have hi' : i < d := by simpa [reshapeKids] using hi
      simp only [reshapeKids, List.getElem?_map, List.getElem?_range hi', Option.map_some,
        Option.bind_some]
      rw [(reshapeKids_at (by simp) (hsub i hi')).2 p]
      cases hk : ravel (d' :: ds) p with
      | none => rfl
      | some k =>
        simp only [Option.bind_some]
        exact take_drop_elem _ _ _ _ (ravel_lt hk)

/-- Rectangular nested lists are determined by their elements. -/
theorem HasShape.ext : ∀ {ds : List Nat} {a b : Nest V}, HasShape ds a → HasShape ds b →
    (∀ p, a.at p = b.at p) → a = b
  | [], .leaf v, .leaf w, _, _, h => by have := h []; simp [Nest.at] at this; rw [this]
  | [], .node _, _, ha, _, _ => by simp [HasShape] at ha
  | [], .leaf _, .node _, _, hb, _ => by simp [HasShape] at hb
  | _ :: _, .leaf _, _, ha, _, _ => by simp [HasShape] at ha
  | _ :: _, .node _, .leaf _, _, hb, _ => by simp [HasShape] at hb
  | d :: ds, .node cs, .node es, ha, hb, h => by
    congr 1
    apply List.ext_getElem (by rw [ha.1, hb.1])
    intro i h1 h2
    refine HasShape.ext (ha.2 _ (List.getElem_mem h1)) (hb.2 _ (List.getElem_mem h2)) ?_
    intro p
    have := h (i :: p)
    simpa [Nest.at, List.getElem?_eq_getElem h1, List.getElem?_eq_getElem h2] using this

theorem HObj.WF.at_eq {h : HObj V} (w : h.WF) (p : List Nat) :
    h.at p = (ravel h.dims p).bind (fun (k : Nat) => h.obj.data.flatten[k]?) := by
  cases p with
  | nil =>
    rw [w.dims_eq]; rfl
  | cons i p =>
    rw [w.dims_eq]
    simp only [HObj.at, ravel]
    by_cases hi : i < h.obj.pts.len
    · rw [if_pos hi]
      cases hk : ravel h.dims.tail p with
      | none => rfl
      | some k =>
        have hlt := ravel_lt hk
        rw [w.fts] at hlt
        simp only [Option.bind_some, Option.map_some]
        rw [w.fts]
        have := (flatten_uniform h.obj.data w.obj.cols).2 i k hlt
        rw [this]; rfl
    · rw [if_neg hi]
      cases hk : ravel h.dims.tail p with
      | none => rfl
      | some k =>
        simp only [Option.bind_some, Option.bind_none, Obj.elem?]
        rw [List.getElem?_eq_none (by rw [w.obj.rows]; omega)]
        rfl

/-- C88. `copy('python list')` of an object of more than two dimensions gives rectangular nested
lists of the dimensions of the object with every element at its path, when one numpy array can hold
all the values unchanged. -/
theorem C88_copy_list_partial (np : List V → List V) {h : HObj V} (w : h.WF) (hd : 2 < h.dims.length)
    (hnp : np h.obj.data.flatten = h.obj.data.flatten) :
    ∃ cs, h.copyList np = .ok cs ∧ HasShape h.dims (.node cs) ∧ ∀ p, (Nest.node cs).at p = h.at p := by
  have hl : h.obj.data.flatten.length = h.dims.prod := by
    rw [w.dims_eq, (flatten_uniform h.obj.data w.obj.cols).1, w.obj.rows, List.prod_cons, w.fts]
  have hne : h.dims ≠ [] := by intro e; simp [e] at hd
  obtain ⟨h1, h2⟩ := reshapeKids_at hne hl
  refine ⟨reshapeKids h.dims h.obj.data.flatten, ?_, h1, ?_⟩
  · unfold HObj.copyList HObj.reshaped
    rw [if_pos hd, if_pos hl, hnp]
  · intro p
    rw [h2 p, w.at_eq]

/-- C88. Round trip: creating an object from rectangular nested lists and copying it to a Python list
gives the lists back (missing values replaced, so: when there are none). -/
theorem C88_round_trip_partial (C : CellOps V) (chars : V → Option (List V)) (np : List V → List V)
    {n : Nat} {ds : List Nat} {data : List (Nest V)} (hd : 2 ≤ ds.length)
    (hpos : ∀ d ∈ n :: ds, 0 < d) (hs : HasShape (n :: ds) (.node data))
    (hm : ∀ p v, (Nest.node data).at p = some v → C.missing v = false) (hnp : ∀ l, np l = l) :
    ∃ h, highData C chars .auto .auto data = .ok h ∧ h.copyList np = .ok data := by
  obtain ⟨-, h, h1, h2, h3, h4, -⟩ := C88_create C chars hd hpos hs (pn := .auto) (fn := .auto)
    (by simp) (by simp) trivial trivial
  obtain ⟨cs, k1, k2, k3⟩ := C88_copy_list_partial np h2 (by rw [h3]; simp; omega) (hnp _)
  refine ⟨h, h1, ?_⟩
  rw [k1]
  rw [h3] at k2
  have : Nest.node cs = Nest.node data := by
    refine HasShape.ext k2 hs ?_
    intro p
    rw [k3 p, h4 p]
    cases hv : (Nest.node data).at p with
    | none => rfl
    | some v => simp [hm p v hv]
  cases this
  rfl

/-! ## Single points -/

theorem nested_spec {h : HObj V} (w : h.WF) (hd : 2 < h.dims.length) {i : Nat}
    (hi : i < h.obj.pts.len) :
    ∃ r, h.nested i = .ok r ∧ r.WF ∧ r.dims = h.dims.tail ∧ (∀ p, r.at p = h.at (i :: p)) ∧
      (∀ x ∈ r.obj.pts.getNames, x = none) ∧ (∀ x ∈ r.obj.fts.getNames, x = none) := by
  obtain ⟨d, ds, e⟩ : ∃ d ds, h.dims.tail = d :: ds := by
    cases ht : h.dims.tail with
    | nil => rw [w.dims_eq, ht] at hd; simp at hd
    | cons d ds => exact ⟨d, ds, rfl⟩
  have hlen : ds ≠ [] := by
    intro he; rw [w.dims_eq, e, he] at hd; simp at hd
  obtain ⟨point, hp1, -, hp3⟩ := w.obj.vector_point hi
  have hpl : point.length = d * ds.prod := by
    rw [hp3, ← w.fts, e, List.prod_cons]
  have hg : h.obj.data.getD i [] = point := by simp [hp1]
  let o : Obj V := ⟨(List.range d).map (fun k => (point.drop (k * ds.prod)).take ds.prod), ⟨d, none⟩,
    ⟨ds.prod, none⟩⟩
  refine ⟨⟨d :: ds, o⟩, ?_, ⟨⟨by simp [o], ?_, none_ok _, none_ok _⟩, ?_, rfl, rfl⟩, by rw [e], ?_, ?_, ?_⟩
  · unfold HObj.nested
    simp only [e, List.headD_cons, List.tail_cons, hg]
    rfl
  · intro r hr
    simp only [o, List.mem_map, List.mem_range] at hr
    obtain ⟨k, hk, rfl⟩ := hr
    have : (k + 1) * ds.prod ≤ d * ds.prod := Nat.mul_le_mul_right _ hk
    rw [Nat.add_mul, Nat.one_mul] at this
    show ((point.drop (k * ds.prod)).take ds.prod).length = ds.prod
    rw [List.length_take, List.length_drop]; omega
  · cases ds with
    | nil => exact absurd rfl hlen
    | cons => simp
  · intro p
    cases p with
    | nil => simp [HObj.at, e, ravel]
    | cons j p =>
      simp only [HObj.at, e, List.tail_cons, ravel]
      by_cases hj : j < d
      · rw [if_pos hj]
        cases hk : ravel ds p with
        | none => rfl
        | some k =>
          simp only [Option.bind_some, Option.map_some, Obj.elem?, hp1, o, List.getElem?_map,
            List.getElem?_range hj]
          exact take_drop_elem _ _ _ _ (ravel_lt hk)
      · rw [if_neg hj]
        cases hk : ravel ds p with
        | none => rfl
        | some k =>
          simp only [Option.bind_some, Option.bind_none, Obj.elem?, o]
          rw [List.getElem?_eq_none (by simpa using hj)]
          rfl
  · intro x hx
    simp [AxisSt.getNames, o] at hx
    exact hx.2
  · intro x hx
    simp [AxisSt.getNames, o] at hx
    exact hx.2

/-- C88. `obj.points[i]` of an object of more than two dimensions, for an index or name of a point, is
the object of the remaining dimensions with the elements whose path begins with that point. -/
theorem C88_point {h : HObj V} (w : h.WF) (hd : 2 < h.dims.length) {id : Ident}
    (hf : id.isFlt = false) {i : Nat} (hi : Denotes h.obj.pts id i) :
    ∃ r, h.pointsGet (.single id) = .ok r ∧ r.WF ∧ r.dims = h.dims.tail ∧
      ∀ p, r.at p = h.at (i :: p) := by
  have h1 := (getIndex_denotes w.obj.pts hf true (i : Int)).2 ⟨i, rfl, hi⟩
  have hlt : i < h.obj.pts.len := by
    cases id with
    | flt q => cases hf
    | int z => exact hi.1
    | str s =>
      have : h.obj.pts.getNames[i]? = some (some s) := hi
      have := (List.getElem?_eq_some_iff.1 this).1
      rwa [w.obj.pts.length_getNames] at this
  have h2 : pyIndex h.obj.pts.len (i : Int) = .ok i := by
    unfold pyIndex; rw [if_pos (by omega)]; rfl
  obtain ⟨r, r1, r2, r3, r4, -⟩ := nested_spec w hd hlt
  refine ⟨r, ?_, r2, r3, r4⟩
  simp only [HObj.pointsGet, h1, h2, bind, Except.bind]
  rw [if_pos hd, r1]

/-! ## Structural operations -/

/-- `r` consists of the points `tgt` of `h`, with all their dimensions. -/
structure PointsOf (h r : HObj V) (tgt : List Nat) : Prop where
  wf : r.WF
  dims : r.dims = tgt.length :: h.dims.tail
  elems : ∀ (k i : Nat) p, tgt[k]? = some i → r.at (k :: p) = h.at (i :: p)
  pNames : r.obj.pts.getNames = pick h.obj.pts.getNames tgt
  fNames : r.obj.fts.getNames = h.obj.fts.getNames

theorem PointsOf.of {h : HObj V} (w : h.WF) {o : Obj V} {tgt : List Nat}
    (S : Obj.SelectedSpec h.obj o .point tgt) (hb : ∀ i ∈ tgt, i < h.obj.pts.len) {d : Nat}
    (hd : d = tgt.length) : PointsOf h ⟨d :: h.dims.tail, o⟩ tgt := by
  have hl : o.pts.len = tgt.length := S.len
  have hol : o.fts.len = h.obj.fts.len := S.offLen
  refine ⟨⟨S.wf, ?_, ?_, ?_⟩, by rw [hd], ?_, S.names, S.offNames⟩
  · have := w.len; rw [w.dims_eq] at this; simpa using this
  · simp [hl, hd]
  · simp [hol, w.fts]
  · intro k i p hk
    simp only [HObj.at, List.tail_cons]
    cases hr : ravel h.dims.tail p with
    | none => rfl
    | some m =>
      simp only [Option.bind_some, Obj.elem?]
      have : o.data = pick h.obj.data tgt := S.data
      rw [this, getElem?_pick (by rw [w.obj.rows]; exact hb), hk]
      rfl

theorem copyPts_ok {samp : List Nat → Nat → List Nat} {h r : HObj V} {sel : Selector V}
    (hr : h.copyPts samp sel = .ok r) :
    ∃ o, (h.obj.copy samp .point sel).2 = .ok o ∧ r = h.withDims o := by
  simp only [HObj.copyPts, bind, Except.bind, pure, Except.pure] at hr
  cases h1 : h.checkSelector sel with
  | error e => rw [h1] at hr; cases hr
  | ok u =>
    rw [h1] at hr; dsimp only at hr
    cases h2 : (h.obj.copy samp .point sel).2 with
    | error e => rw [h2] at hr; cases hr
    | ok o => rw [h2] at hr; dsimp only at hr; cases hr; exact ⟨o, rfl, rfl⟩

theorem copy_ok {samp : List Nat → Nat → List Nat} (hs : SampleSpec samp) {o r : Obj V} (h : o.WF)
    {ax : Ax} {sel : Selector V} (hr : (o.copy samp ax sel).2 = .ok r) :
    ∃ tgt, o.targets samp ax sel = .ok tgt ∧ tgt.Nodup ∧ (∀ i ∈ tgt, i < (o.axis ax).len) ∧
      Obj.SelectedSpec o r ax tgt := by
  simp only [Obj.copy, bind, Except.bind] at hr
  cases ht : o.targets samp ax sel with
  | error e => rw [ht] at hr; cases hr
  | ok tgt =>
    rw [ht] at hr; dsimp only at hr
    obtain ⟨h1, h2⟩ := targets_valid hs h ht
    obtain ⟨r', k1, k2⟩ := Obj.selected_spec h ax h1 h2
    rw [k1] at hr; cases hr
    exact ⟨tgt, rfl, h1, h2, k2⟩

/-- C88. `points.copy` with any selector gives the selected points, each with all its dimensions,
elements and names. -/
theorem C88_points_copy {samp : List Nat → Nat → List Nat} (hs : SampleSpec samp) {h r : HObj V}
    (w : h.WF) {sel : Selector V} (hr : h.copyPts samp sel = .ok r) :
    ∃ tgt, h.obj.targets samp .point sel = .ok tgt ∧ tgt.Nodup ∧ (∀ i ∈ tgt, i < h.obj.pts.len) ∧
      PointsOf h r tgt := by
  obtain ⟨o, h1, rfl⟩ := copyPts_ok hr
  obtain ⟨tgt, t1, t2, t3, t4⟩ := copy_ok hs w.obj h1
  exact ⟨tgt, t1, t2, t3, PointsOf.of w t4 t3 t4.len⟩

/-- C88. `points.extract` gives the selected points and leaves the others in their order, all with
their dimensions and elements. -/
theorem C88_points_extract {samp : List Nat → Nat → List Nat} (hs : SampleSpec samp) {h h' r : HObj V}
    (w : h.WF) {sel : Selector V} (hr : h.extractPts samp sel = (h', .ok r)) :
    ∃ tgt, h.obj.targets samp .point sel = .ok tgt ∧ tgt.Nodup ∧ (∀ i ∈ tgt, i < h.obj.pts.len) ∧
      PointsOf h r tgt ∧
      PointsOf h h' ((List.range h.obj.pts.len).filter (fun i => i ∉ tgt)) := by
  unfold HObj.extractPts at hr
  cases h1 : h.checkSelector sel with
  | error e => rw [h1] at hr; dsimp only at hr; cases hr
  | ok u =>
    rw [h1] at hr; dsimp only at hr
    unfold HObj.removed Obj.extract at hr
    cases ht : h.obj.targets samp .point sel with
    | error e => simp only [ht, bind, Except.bind] at hr; cases hr
    | ok tgt =>
      obtain ⟨k1, k2⟩ := targets_valid hs w.obj ht
      obtain ⟨o, k3, k4⟩ := Obj.selected_spec w.obj .point k1 k2
      simp only [ht, k3, bind, Except.bind, pure, Except.pure, Prod.mk.injEq, Except.ok.injEq] at hr
      obtain ⟨rfl, rfl⟩ := hr
      have k5 := Obj.remaining_spec w.obj .point k1 k2
      refine ⟨tgt, rfl, k1, k2, PointsOf.of w k4 k2 k4.len, ?_⟩
      have hlen : (o.axis .point).len = tgt.length := k4.len
      rw [hlen]
      refine PointsOf.of w k5 Obj.restIdx_bound ?_
      have h6 : ((h.obj.remaining .point tgt tgt.length).axis .point).len = _ := k5.len
      rw [← h6]
      have hl' : o.pts.len = tgt.length := hlen
      show h.dims.headD 0 - o.pts.len = _
      rw [w.dims_eq, hl']
      rfl

/-- C88. `points.delete` leaves the points that are not selected, `points.retain` the selected ones,
all with their dimensions and elements. -/
theorem C88_points_delete_retain {samp : List Nat → Nat → List Nat} (hs : SampleSpec samp)
    {h h' : HObj V} (w : h.WF) {sel : Selector V} :
    (h.deletePts samp sel = (h', .ok ()) →
      ∃ tgt, h.obj.targets samp .point sel = .ok tgt ∧
        PointsOf h h' ((List.range h.obj.pts.len).filter (fun i => i ∉ tgt))) ∧
    (h.retainPts samp sel = (h', .ok ()) →
      ∃ tgt, h.obj.targets samp .point sel = .ok tgt ∧ PointsOf h h' tgt) := by
  refine ⟨?_, ?_⟩
  · intro hr
    unfold HObj.deletePts at hr
    obtain ⟨e1, e2⟩ := Prod.mk.injEq .. ▸ hr
    cases hx : (h.extractPts samp sel).2 with
    | error e => rw [hx] at e2; cases e2
    | ok r =>
      have : h.extractPts samp sel = (h', .ok r) := Prod.ext e1 hx
      obtain ⟨tgt, t1, -, -, -, t5⟩ := C88_points_extract hs w this
      exact ⟨tgt, t1, t5⟩
  · intro hr
    unfold HObj.retainPts at hr
    cases h1 : h.checkSelector sel with
    | error e => rw [h1] at hr; dsimp only at hr; cases hr
    | ok u =>
      rw [h1] at hr; dsimp only at hr
      unfold Obj.retain at hr
      cases ht : h.obj.targets samp .point sel with
      | error e => simp only [ht, bind, Except.bind] at hr; cases hr
      | ok tgt =>
        obtain ⟨k1, k2⟩ := targets_valid hs w.obj ht
        obtain ⟨o, k3, k4⟩ := Obj.selected_spec w.obj .point k1 k2
        obtain ⟨a, ha1, ha2, ha3, ha4, ha5⟩ := init_same k4.wf.pts
        obtain ⟨b, hb1, hb2, hb3, hb4, hb5⟩ := init_same k4.wf.fts
        simp only [ht, k3, bind, Except.bind, pure, Except.pure, Obj.make, ha1, hb1, Prod.mk.injEq] at hr
        obtain ⟨rfl, -⟩ := hr
        refine ⟨tgt, rfl, PointsOf.of (o := ⟨o.data, a, b⟩) w ⟨⟨?_, ?_, ha2, hb2⟩, k4.data, ?_, ?_, ?_, ?_, ?_, ?_⟩ k2 ?_⟩
        · show o.data.length = a.len
          rw [ha3]; exact k4.wf.rows
        · intro q hq
          show q.length = b.len
          rw [hb3]; exact k4.wf.cols q hq
        · exact ha3.trans k4.len
        · exact ha4.trans k4.names
        · exact hb3.trans k4.offLen
        · exact hb4.trans k4.offNames
        · exact ha5.trans k4.created
        · exact hb5.trans k4.offCreated
        · exact ha3.trans k4.len

theorem checkSelector_ok {samp : List Nat → Nat → List Nat} {h : HObj V} {sel : Selector V}
    (h1 : ∀ f, sel.target ≠ some (.pred f)) (h2 : ∀ s q, sel.target ≠ some (.str s q))
    {tgt : List Nat} (ht : h.obj.targets samp .point sel = .ok tgt) : h.checkSelector sel = .ok () := by
  have hv : validateStructural sel = .ok () := by
    unfold Obj.targets at ht
    cases hv : validateStructural sel with
    | error e => rw [hv] at ht; cases ht
    | ok u => rfl
  unfold HObj.checkSelector
  simp only [hv, bind, Except.bind]
  unfold HObj.checkTarget
  split
  · next f he => exact absurd he (h1 f)
  · next s q he => exact absurd he (h2 s q)
  · rfl

/-- C88. With a selector that is no function and no string the structural operations are accepted
exactly when they are for the flattened object; functions are refused for more than two
dimensions, leaving the object alone. -/
theorem C88_points_accepts {samp : List Nat → Nat → List Nat} (hs : SampleSpec samp) {h : HObj V}
    (w : h.WF) {sel : Selector V} :
    ((∀ f, sel.target ≠ some (.pred f)) → (∀ s q, sel.target ≠ some (.str s q)) →
      ∀ tgt, h.obj.targets samp .point sel = .ok tgt →
        (∃ r, h.copyPts samp sel = .ok r) ∧ (∃ h' r, h.extractPts samp sel = (h', .ok r)) ∧
        (∃ h', h.deletePts samp sel = (h', .ok ())) ∧ (∃ h', h.retainPts samp sel = (h', .ok ()))) ∧
    (∀ f, sel.target = some (.pred f) → 2 < h.dims.length →
      (∃ e, h.copyPts samp sel = .error e) ∧ (∃ e, h.extractPts samp sel = (h, .error e)) ∧
      (∃ e, h.retainPts samp sel = (h, .error e))) := by
  refine ⟨?_, ?_⟩
  · intro h1 h2 tgt ht
    have hc := checkSelector_ok h1 h2 ht
    obtain ⟨k1, k2⟩ := targets_valid hs w.obj ht
    obtain ⟨o, k3, k4⟩ := Obj.selected_spec w.obj .point k1 k2
    obtain ⟨a, ha1, -⟩ := init_same k4.wf.pts
    obtain ⟨b, hb1, -⟩ := init_same k4.wf.fts
    have he : h.extractPts samp sel =
        (⟨(h.dims.headD 0 - o.pts.len) :: h.dims.tail, h.obj.remaining .point tgt o.pts.len⟩,
          .ok (h.withDims o)) := by
      simp only [HObj.extractPts, hc, HObj.removed, Obj.extract, ht, k3, bind, Except.bind, pure,
        Except.pure]
      rfl
    refine ⟨⟨h.withDims o, ?_⟩, ⟨_, _, he⟩, ⟨(h.extractPts samp sel).1, ?_⟩, ⟨h.withDims ⟨o.data, a, b⟩, ?_⟩⟩
    · simp only [HObj.copyPts, hc, Obj.copy, ht, k3, bind, Except.bind, pure, Except.pure]
    · unfold HObj.deletePts
      rw [he]
      rfl
    · simp only [HObj.retainPts, hc, Obj.retain, ht, k3, Obj.make, ha1, hb1, bind, Except.bind, pure,
        Except.pure]
  · intro f hf hd
    have hc : ∃ e, h.checkSelector sel = .error e := by
      unfold HObj.checkSelector
      simp only [bind, Except.bind]
      cases hv : validateStructural sel with
      | error e => exact ⟨e, rfl⟩
      | ok u =>
        refine ⟨.ImproperObjectAction, ?_⟩
        dsimp only
        rw [hf]
        unfold HObj.checkTarget
        dsimp only
        rw [if_pos hd]
    obtain ⟨e, he⟩ := hc
    exact ⟨⟨e, by simp only [HObj.copyPts, he, bind, Except.bind]⟩,
      ⟨e, by simp only [HObj.extractPts, he]⟩, ⟨e, by simp only [HObj.retainPts, he]⟩⟩

/-! ## flatten and unflatten -/

/-- C88. `flatten()` gives one point holding the element of every path at its row-major position. -/
theorem C88_flatten {h r : HObj V} (w : h.WF) {order : Order} (hr : h.flatten order = (r, .ok ())) :
    r.WF ∧ r.dims = [1, h.dims.prod] ∧ (order = .feature → h.dims.length = 2) ∧
      (order = .point → ∀ p k, ravel h.dims p = some k → r.at [0, k] = h.at p) := by
  unfold HObj.flatten at hr
  split at hr
  · cases hr
  · next hc =>
    cases hx : h.obj.flatten order with
    | mk o e =>
      rw [hx] at hr
      cases e with
      | error e => dsimp only at hr; cases hr
      | ok u =>
        dsimp only at hr
        cases hr
        obtain ⟨hn, hm, -⟩ := (Obj.C14_flatten_accepts_iff w.obj order).1 (by rw [hx])
        obtain ⟨k1, k2, k3, -, k5, -⟩ := Obj.C14_flatten w.obj order hx
        have hprod : h.dims.prod = h.obj.pts.len * h.obj.fts.len := by
          rw [w.dims_eq, List.prod_cons, w.fts]
        refine ⟨⟨k1, by simp [HObj.flat2], by simp [HObj.flat2], by simp [HObj.flat2]⟩, ?_, ?_, ?_⟩
        · simp [HObj.flat2, k2, k3, hprod]
        · rintro rfl
          have := w.len
          simp at hc
          have := hc (by omega) (by omega)
          omega
        · rintro rfl p k hk
          have hlt := ravel_lt hk
          rw [hprod] at hlt
          have e1 : (HObj.flat2 o).at [0, k] = o.elem? 0 k := by
            simp [HObj.at, HObj.flat2, ravel, k3, hlt]
          rw [e1]
          cases p with
          | nil => rw [w.dims_eq] at hk; cases hk
          | cons i p =>
            rw [w.dims_eq] at hk
            simp only [ravel] at hk
            split at hk
            · next hi =>
              cases hq : ravel h.dims.tail p with
              | none => rw [hq] at hk; cases hk
              | some m =>
                rw [hq] at hk
                simp at hk
                have hm' := ravel_lt hq
                rw [w.fts] at hm' hk
                have := k5 i m hi hm'
                rw [← hk]
                simpa [HObj.at, hq, flatPos] using this
            · cases hk

theorem toNat_prod : ∀ ds : List Nat, (ds.map Int.ofNat).prod = (ds.prod : Int)
  | [] => rfl
  | d :: ds => by
    rw [List.map_cons, List.prod_cons, List.prod_cons, toNat_prod ds]
    simp

/-- C88. `unflatten(dims)` of a single point (or feature) gives an object of those dimensions with
value number k at the path whose row-major position is k. -/
theorem C88_unflatten {h r : HObj V} (w : h.WF) {ds : List Nat}
    (hr : h.unflatten .point ds = .ok r) :
    r.WF ∧ r.dims = ds ∧ ∀ p, r.at p = (ravel ds p).bind (fun (k : Nat) => h.obj.data.flatten[k]?) := by
  unfold HObj.unflatten at hr
  split at hr
  · cases hr
  · cases hx : h.obj.unflatten .point (ds.map Int.ofNat) with
    | error e => rw [hx] at hr; cases hr
    | ok o =>
      rw [hx] at hr
      cases hr
      have hc := Obj.check_of_ok hx
      obtain ⟨o', p', f', e, k1, k2, k3, k4, k5, -⟩ := Obj.unflatten_spec h.obj .point _ hc
      rw [hx] at e
      cases e
      obtain ⟨-, -, -, hl, hp, -⟩ := (Obj.C14_unflatten_accepts_iff h.obj .point _).1 ⟨o, hx⟩
      rw [toNat_prod] at hp
      have hlen : h.obj.data.flatten.length = ds.prod := by
        rw [(flatten_uniform h.obj.data w.obj.cols).1, w.obj.rows]
        exact_mod_cast hp.symm
      cases ds with
      | nil => simp at hl
      | cons d ds =>
        simp only [List.map_cons, List.headD_cons, List.tail_cons, toNat_prod, Int.toNat_natCast,
          Int.ofNat_eq_natCast] at k3 k4 k5
        obtain ⟨u1, u2, u3⟩ := Obj.unflatData_spec .point (n := d) (m := ds.prod) (hlen.trans List.prod_cons)
        have wf : (⟨d :: ds, o⟩ : HObj V).WF := by
          refine ⟨⟨by rw [k5, u1, k3], by rw [k5, k4]; exact u2, k1, k2⟩, ?_, by simp [k3], by simp [k4]⟩
          rw [List.length_map] at hl
          exact hl
        refine ⟨wf, rfl, ?_⟩
        intro p
        cases p with
        | nil => rfl
        | cons i p =>
          simp only [HObj.at, List.tail_cons, ravel]
          by_cases hi : i < d
          · rw [if_pos hi]
            cases hk : ravel ds p with
            | none => rfl
            | some k =>
              simp only [Option.bind_some, Option.map_some, Obj.elem?, k5]
              exact u3 i k hi (ravel_lt hk)
          · rw [if_neg hi]
            cases hk : ravel ds p with
            | none => rfl
            | some k =>
              simp only [Option.bind_some, Option.bind_none, Obj.elem?, k5]
              rw [List.getElem?_eq_none (by rw [u1]; omega)]
              rfl

/-- C88. `flatten()` followed by `unflatten` to the former dimensions succeeds and gives back every
element at its path. -/
theorem C88_flatten_unflatten {h r : HObj V} (w : h.WF) (hr : h.flatten .point = (r, .ok ())) :
    ∃ b, r.unflatten .point h.dims = .ok b ∧ b.WF ∧ b.dims = h.dims ∧ ∀ p, b.at p = h.at p := by
  obtain ⟨f1, f2, -, f4⟩ := C88_flatten w hr
  have f4 := f4 rfl
  have h1 : r.obj.pts.len = 1 := by have := f1.pts; rw [f2] at this; simpa using this.symm
  have h2 : r.obj.fts.len = h.dims.prod := by have := f1.fts; rw [f2] at this; simpa using this.symm
  have hpos : 0 < h.dims.prod := by
    unfold HObj.flatten at hr
    rw [if_neg (by simp)] at hr
    cases hx : h.obj.flatten .point with
    | mk o e =>
      rw [hx] at hr
      cases e with
      | error e => dsimp only at hr; cases hr
      | ok u =>
        obtain ⟨hn, hm, -⟩ := (Obj.C14_flatten_accepts_iff w.obj .point).1 (by rw [hx])
        rw [w.dims_eq, List.prod_cons, w.fts]
        exact Nat.mul_pos hn hm
  obtain ⟨o, ho⟩ := (Obj.C14_unflatten_accepts_iff r.obj .point (h.dims.map Int.ofNat)).2
    ⟨by omega, by omega, Or.inl h1, by simpa using w.len, by rw [toNat_prod, h1, h2]; simp, by simp⟩
  have hb : r.unflatten .point h.dims = .ok ⟨h.dims, o⟩ := by
    unfold HObj.unflatten
    rw [if_neg (by rw [f2]; simp), ho]
    rfl
  obtain ⟨b1, b2, b3⟩ := C88_unflatten f1 hb
  refine ⟨_, hb, b1, rfl, ?_⟩
  intro p
  rw [b3 p]
  cases hk : ravel h.dims p with
  | none =>
    rw [w.at_eq, hk]; rfl
  | some k =>
    have := f4 p k hk
    rw [← this, f1.at_eq, f2]
    have hlt := ravel_lt hk
    simp [ravel, hlt]

/-! ## isIdentical -/

theorem ravel_surj : ∀ {ds : List Nat} {k : Nat}, k < ds.prod → ∃ p, ravel ds p = some k
  | [], k, h => ⟨[], by simp at h; simp [ravel, h]⟩
  | d :: ds, k, h => by
    rw [List.prod_cons] at h
    have hp : 0 < ds.prod := by
      rcases Nat.eq_zero_or_pos ds.prod with h0 | h0
      · rw [h0] at h; simp at h
      · exact h0
    obtain ⟨p, hp'⟩ := ravel_surj (Nat.mod_lt k hp)
    refine ⟨k / ds.prod :: p, ?_⟩
    have hi : k / ds.prod < d := Nat.div_lt_of_lt_mul (by rwa [Nat.mul_comm])
    simp only [ravel, if_pos hi, hp', Option.map_some]
    rw [Nat.mul_comm, Nat.div_add_mod]

/-- C88. Two objects are identical exactly when they have the same dimensions, the same names and the
same element at every path. -/
theorem C88_isIdentical_iff (C : Cmp V) {h g : HObj V} (wh : h.WF) (wg : g.WF) :
    h.isIdentical C g = true ↔ h.dims = g.dims ∧
      h.obj.pts.getNames = g.obj.pts.getNames ∧ h.obj.fts.getNames = g.obj.fts.getNames ∧
      ∀ p x y, h.at p = some x → g.at p = some y → SameVal C x y := by
  unfold HObj.isIdentical
  constructor
  · intro he
    split at he
    · next hd =>
      have I := (Obj.C16_isIdentical_iff C wh.obj wg.obj).1 he
      refine ⟨hd, I.pNames, I.fNames, ?_⟩
      intro p x y hx hy
      cases p with
      | nil => cases hx
      | cons i p =>
        simp only [HObj.at] at hx hy
        rw [← hd] at hy
        cases hk : ravel h.dims.tail p with
        | none => rw [hk] at hx; cases hx
        | some k =>
          rw [hk] at hx hy
          exact I.elems i k x y hx hy
    · cases he
  · rintro ⟨hd, h2, h3, h4⟩
    rw [if_pos hd, Obj.C16_isIdentical_iff C wh.obj wg.obj]
    have e1 : h.obj.pts.len = g.obj.pts.len := by
      have := wh.pts; rw [hd, wg.pts] at this; simpa using this.symm
    have e2 : h.obj.fts.len = g.obj.fts.len := by rw [← wh.fts, hd, wg.fts]
    refine ⟨e1, e2, h2, h3, ?_⟩
    intro i j x y hx hy
    have hj : j < h.dims.tail.prod := by
      rw [wh.fts]
      unfold Obj.elem? at hx
      cases hr : h.obj.data[i]? with
      | none => rw [hr] at hx; cases hx
      | some row =>
        rw [hr] at hx
        have := (List.getElem?_eq_some_iff.1 hx).1
        rwa [wh.obj.cols row (List.mem_of_getElem? hr)] at this
    obtain ⟨p, hp⟩ := ravel_surj hj
    refine h4 (i :: p) x y ?_ ?_
    · simp only [HObj.at, hp, Option.bind_some, hx]
    · simp only [HObj.at, ← hd, hp, Option.bind_some, hy]

/-! ## insert and append -/

/-- C88. `points.insert`/`points.append` of an object of the same further dimensions without feature
names puts its points before position `i`, each with all its dimensions.  (Missing: that nothing else
is accepted – see the violation below – and objects with feature names, which are matched by name.) -/
theorem C88_points_insert_partial {h g r : HObj V} (wh : h.WF) (wg : g.WF) {before : Option Ident} {i : Nat}
    (hd : h.dims.tail = g.dims.tail) (hn : g.obj.fts.tbl = none)
    (hi : Obj.insertPos h.obj.pts before = .ok i) (hr : h.insertPts before g = .ok r) :
    r.WF ∧ r.dims = (h.obj.pts.len + g.obj.pts.len) :: h.dims.tail ∧ i ≤ h.obj.pts.len ∧
      ∀ k p, r.at (k :: p) =
        if k < i then h.at (k :: p)
        else if k < i + g.obj.pts.len then g.at ((k - i) :: p)
        else h.at ((k - g.obj.pts.len) :: p) := by
  simp only [HObj.insertPts, bind, Except.bind, pure, Except.pure, hi] at hr
  cases hc : h.checkInsert g with
  | error e => rw [hc] at hr; cases hr
  | ok u =>
    rw [hc] at hr; dsimp only at hr
    cases ho : h.obj.insert .point before g.obj with
    | error e => rw [ho] at hr; cases hr
    | ok o =>
      rw [ho] at hr; dsimp only at hr; cases hr
      obtain ⟨ins, A, hal, hl, -, wo, hol, hof, -⟩ := insert_ok wh.obj wg.obj (ax := .point) hi ho
      have hins : ins = g.obj := by
        have : g.obj.axis Ax.point.off = g.obj.fts := rfl
        unfold Obj.alignNames at hal
        simp [this, hn] at hal
        exact hal.symm
      have hle : i ≤ h.obj.pts.len := insertPos_le wh.obj.pts hi
      have hdata : o.data = h.obj.data.take i ++ g.obj.data ++ h.obj.data.drop i := by
        unfold Obj.insert at ho
        simp only [bind, Except.bind, pure, Except.pure, hi, Obj.axis] at ho
        cases hv : Obj.validateInsertable h.obj g.obj .point with
        | error e => rw [hv] at ho; cases ho
        | ok u =>
          rw [hv, hal] at ho; dsimp only at ho
          cases ha : Obj.insertedAxis h.obj.pts ins.pts i with
          | error e => rw [ha] at ho; cases ho
          | ok a =>
            rw [ha] at ho; dsimp only at ho
            cases ho
            rw [hins]
            show Obj.insertData .point h.obj.pts.len h.obj.data g.obj.data i = _
            have hr1 := wh.obj.rows
            unfold Obj.insertData
            dsimp only
            by_cases h0 : i = 0
            · simp [h0]
            · by_cases h1 : i = h.obj.pts.len
              · rw [if_neg (by omega), if_neg h0, List.take_of_length_le (by omega),
                  List.drop_eq_nil_of_le (by omega), List.append_nil]
              · rw [if_pos ⟨h0, h1⟩]
      refine ⟨⟨wo, ?_, rfl, ?_⟩, ?_, hle, ?_⟩
      · have := wh.len; rw [wh.dims_eq] at this; simpa [HObj.withDims] using this
      · have : o.fts = h.obj.fts := hof
        simp [HObj.withDims, this, wh.fts]
      · have : o.pts.len = h.obj.pts.len + g.obj.pts.len := hol
        simp [HObj.withDims, this]
      · intro k p
        simp only [HObj.at, HObj.withDims, List.tail_cons, ← hd]
        cases hq : ravel h.dims.tail p with
        | none => simp
        | some m =>
          simp only [Option.bind_some, Obj.elem?, hdata]
          have hr1 := wh.obj.rows
          have hr2 := wg.obj.rows
          by_cases h1 : k < i
          · rw [if_pos h1, List.append_assoc, List.getElem?_append_left (by simp; omega),
              List.getElem?_take_of_lt h1]
          · rw [if_neg h1, List.append_assoc, List.getElem?_append_right (by simp; omega)]
            have hlt : (h.obj.data.take i).length = i := by simp; omega
            rw [hlt]
            by_cases h2 : k < i + g.obj.pts.len
            · rw [if_pos h2, List.getElem?_append_left (by omega)]
            · rw [if_neg h2, List.getElem?_append_right (by omega), List.getElem?_drop]
              congr 2
              omega

/-! ## Concrete cases and violations -/

namespace HighDimEx

/-- Iterating over a Python value: a string gives its characters. -/
def chars : Cell → Option (List Cell)
  | .str s => some (s.toList.map (fun c => .str (String.ofList [c])))
  | _ => none

/-- `np.array` of values: with text among them numbers become text (numpy promotes to a `<U` type). -/
def npCells (l : List Cell) : List Cell :=
  if l.any (fun v => v.asStr.isSome) then l.map (fun v => .str v.toStr) else l

def row (l : List Cell) : Nest Cell := .node (l.map .leaf)

def n (i : Int) : Cell := .num i

/-- `[[[1,2,3],[4,5,6]],[[7,8,9],[10,11,12]]]`. -/
def cube : List (Nest Cell) :=
  [.node [row [n 1, n 2, n 3], row [n 4, n 5, n 6]], .node [row [n 7, n 8, n 9], row [n 10, n 11, n 12]]]

def cubeObj : HObj Cell := ⟨[2, 2, 3],
  ⟨[[n 1, n 2, n 3, n 4, n 5, n 6], [n 7, n 8, n 9, n 10, n 11, n 12]], ⟨2, none⟩, ⟨6, none⟩⟩⟩

/-- The hypotheses of the theorems are met by a 2 x 2 x 3 object. -/
example : HasShape [2, 2, 3] (.node cube) ∧
    highData (cellOps .nan) chars .auto .auto cube = .ok cubeObj ∧
    cubeObj.at [1, 0, 2] = some (n 9) ∧ (Nest.node cube).at [1, 0, 2] = some (n 9) := by
  refine ⟨?_, by decide +kernel, by decide +kernel, by rfl⟩
  simp [HasShape, cube, row]

theorem cubeObj_wf : cubeObj.WF := by
  refine ⟨⟨rfl, ?_, none_ok _, none_ok _⟩, by decide, rfl, rfl⟩
  intro r hr
  simp [cubeObj] at hr
  rcases hr with rfl | rfl <;> rfl

end HighDimEx
open HighDimEx

/-- **C88 violated (1).** Data whose points are ragged in a way that the first path does not show is
accepted: `[[[1,2],[3]],[[4,5],[6]]]` gives an object of dimensions (2, 2, 2) with rows of three values,
which `copy('python list')` then fails to copy. -/
theorem C88_ragged_accepted_violated :
    ∃ h, highData (cellOps .nan) chars .auto .auto
        [.node [row [n 1, n 2], row [n 3]], .node [row [n 4, n 5], row [n 6]]] = .ok h ∧
      h.dims = [2, 2, 2] ∧ h.obj.data = [[n 1, n 2, n 3], [n 4, n 5, n 6]] ∧ ¬ h.WF ∧
      h.at [0, 1, 0] = some (n 3) ∧ h.at [0, 1, 1] = none ∧
      (h.copyList npCells).toOption.isNone := by
  refine ⟨⟨[2, 2, 2], ⟨[[n 1, n 2, n 3], [n 4, n 5, n 6]], ⟨2, none⟩, ⟨4, none⟩⟩⟩, by decide +kernel, rfl, rfl,
    ?_, by decide +kernel, by decide +kernel, by decide +kernel⟩
  intro w
  have := w.obj.cols [n 1, n 2, n 3] (by simp)
  simp at this

/-- **C88 violated (2).** A later point with a single value is silently repeated over the row:
`[[[1],[2,3]],[[5],[]]]` becomes rows `1 2 3` and `5 5 5`. -/
theorem C88_value_repeated_violated :
    ∃ h, highData (cellOps .nan) chars .auto .auto
        [.node [row [n 1], row [n 2, n 3]], .node [row [n 5], row []]] = .ok h ∧
      h.obj.data = [[n 1, n 2, n 3], [n 5, n 5, n 5]] :=
  ⟨⟨[2, 2, 1], ⟨[[n 1, n 2, n 3], [n 5, n 5, n 5]], ⟨2, none⟩, ⟨2, none⟩⟩⟩, by decide +kernel, rfl⟩

/-- **C88 violated (3).** Text standing where a list is expected is taken apart into characters. -/
theorem C88_text_split_violated :
    ∃ h, highData (cellOps .nan) chars .auto .auto
        [.node [row [n 1, n 2], .leaf (.str "ab")]] = .ok h ∧
      h.dims = [1, 2, 2] ∧ h.obj.data = [[n 1, n 2, .str "a", .str "b"]] :=
  ⟨⟨[1, 2, 2], ⟨[[n 1, n 2, .str "a", .str "b"]], ⟨1, none⟩, ⟨4, none⟩⟩⟩, by decide +kernel, rfl, rfl⟩

/-- **C88 violated (4).** `points[[1, 0]]` gives the two points without their dimensions, while
`points.copy([1, 0])` keeps them. -/
theorem C88_points_list_flattened_violated (samp : List Nat → Nat → List Nat) :
    (∃ r, cubeObj.pointsGet (.multi (.list [.id (.int 1), .id (.int 0)])) = .ok r ∧ r.dims = [2, 6]) ∧
    (∃ r, cubeObj.copyPts samp { target := some (.list [.int 1, .int 0]) } = .ok r ∧
      r.dims = [2, 2, 3]) :=
  ⟨⟨_, rfl, rfl⟩, ⟨_, rfl, rfl⟩⟩

/-- A 1 x 3 x 2 object. -/
def otherShape : HObj Cell :=
  ⟨[1, 3, 2], ⟨[[n 1, n 2, n 3, n 4, n 5, n 6]], ⟨1, none⟩, ⟨6, none⟩⟩⟩

/-- **C88 violated (5).** Only the number of flattened values is compared when points are appended: a
1 x 3 x 2 object is appended to a 2 x 2 x 3 one, and its elements are found under other indices. -/
theorem C88_append_other_dimensions_violated :
    ∃ r, cubeObj.insertPts none otherShape = .ok r ∧ r.dims = [3, 2, 3] ∧
      otherShape.at [0, 1, 0] = some (n 3) ∧ r.at [2, 1, 0] = some (n 4) :=
  ⟨_, rfl, rfl, by decide +kernel, by decide +kernel⟩

/-- **C88 violated (6).** `copy('python list')` of numbers and text gives text only. -/
theorem C88_copy_list_retyped_violated :
    ∃ h, highData (cellOps .nan) chars .auto .auto [.node [row [n 1, .str "a"]]] = .ok h ∧ h.WF ∧
      h.at [0, 0, 0] = some (n 1) ∧
      ∃ cs, h.copyList npCells = .ok cs ∧ (Nest.node cs).at [0, 0, 0] = some (.str "1") := by
  refine ⟨⟨[1, 1, 2], ⟨[[n 1, .str "a"]], ⟨1, none⟩, ⟨2, none⟩⟩⟩, by decide +kernel, ?_, by decide +kernel,
    _, rfl, ?_⟩
  · refine ⟨⟨rfl, ?_, none_ok _, none_ok _⟩, by decide, rfl, rfl⟩
    intro r hr
    simp at hr
    rw [hr]; rfl
  · decide +kernel

example : ∃ r, cubeObj.pointsGet (.single (.int 1)) = .ok r ∧ r.dims = [2, 3] ∧
    r.obj.data = [[n 7, n 8, n 9], [n 10, n 11, n 12]] := ⟨_, rfl, rfl, rfl⟩

example : ∃ r, cubeObj.flatten .point = (r, .ok ()) ∧ r.dims = [1, 12] := ⟨_, rfl, rfl⟩

example : (cubeObj.copyList npCells).toOption.isSome := by decide +kernel

end Nimble
