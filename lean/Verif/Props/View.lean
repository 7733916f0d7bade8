import Verif.Model.View
import Verif.Props.GetItem
import Verif.Props.SetItem
import Verif.Lemmas.Insert

/-!
# C40: views show exactly their window; read-only
-/

namespace Nimble

/-! ## Specification -/

/-- The arguments start and end (inclusive) describe the `n` positions `s, s+1, .., s+n-1`; an
omitted start is the first, an omitted end the last position. -/
def Span (a : AxisSt) (start stop : Option Ident) (s n : Nat) : Prop :=
  EndAt a 0 start s ∧
    ((stop = none ∧ s + n = a.len) ∨
      ∃ id e, stop = some id ∧ Denotes a id e ∧ s ≤ e ∧ s + n = e + 1)

def noFlt : Option Ident → Prop
  | some (.flt _) => False
  | _ => True

namespace View
variable {V : Type}

/-- The content of a view: what its element access and its names show. -/
def asObj (o : Obj V) (v : View) : Obj V := ⟨v.rows o, v.pts, v.fts⟩

/-- The view shows the points `s .. s+n-1` and the features `t .. t+m-1` of `o`: by element access,
by its names and when it is copied. -/
structure Shows (o : Obj V) (v : View) (s n t m : Nat) : Prop where
  bp : s + n ≤ o.pts.len
  bf : t + m ≤ o.fts.len
  ep : n = 0 → o.pts.len = 0
  ef : m = 0 → o.fts.len = 0
  ps : v.pStart = s
  pe : v.pEnd = s + n
  fs : v.fStart = t
  fe : v.fEnd = t + m
  window : Obj.Window o (v.asObj o) (List.range' s n) (List.range' t m)
  get : ∀ i j : Nat, i < n → j < m → ∃ x, o.elem? (s + i) (t + j) = some x ∧ v.get o i j = .ok x
  outside : ∀ i j : Int, (i < 0 ∨ (n : Int) ≤ i ∨ j < 0 ∨ (m : Int) ≤ j) → v.get o i j = .error .IndexError
  copy : ∃ r, v.copy o = .ok r ∧ Obj.Window o r (List.range' s n) (List.range' t m)

end View

/-! ## Proofs -/

theorem take_drop_pick {α : Type} (l : List α) {s n : Nat} (h : s + n ≤ l.length) :
    (l.drop s).take n = pick l (List.range' s n) := by
  apply List.ext_getElem?
  intro k
  rw [getElem?_pick (by intro i hi; rw [List.mem_range'_1] at hi; omega)]
  by_cases hk : k < n
  · rw [List.getElem?_range' hk, List.getElem?_take_of_lt hk, List.getElem?_drop]
    simp
  · rw [List.getElem?_eq_none (l := List.range' _ _) (by simp; omega), List.getElem?_eq_none (by simp; omega)]
    rfl

theorem viewStart_ok {a : AxisSt} (h : a.Ok) {id : Option Ident} (hf : noFlt id) (s : Nat) :
    viewStart a id = .ok s ↔ EndAt a 0 id s := by
  cases id with
  | none =>
    show (Except.ok 0 : Res Nat) = .ok s ↔ s = 0
    constructor
    · intro h; exact (Except.ok.inj h).symm
    · rintro rfl; rfl
  | some id =>
    have hf' : id.isFlt = false := by cases id <;> first | rfl | exact hf.elim
    show (a.getIndex id).map Int.toNat = .ok s ↔ Denotes a id s
    rw [Res.map_ok]
    constructor
    · rintro ⟨z, hz, rfl⟩
      obtain ⟨i, rfl, hi⟩ := (getIndex_denotes h hf' false z).1 hz
      exact hi
    · intro hd
      exact ⟨(s : Int), (getIndex_denotes h hf' false s).2 ⟨s, rfl, hd⟩, rfl⟩

theorem viewEnd_ok {a : AxisSt} (h : a.Ok) {id : Option Ident} (hf : noFlt id) (s r : Nat) :
    viewEnd a s id = .ok r ↔ (id = none ∧ r = a.len) ∨
      ∃ i e, id = some i ∧ Denotes a i e ∧ s ≤ e ∧ r = e + 1 := by
  cases id with
  | none =>
    show (Except.ok a.len : Res Nat) = .ok r ↔ _
    constructor
    · intro h; exact Or.inl ⟨rfl, (Except.ok.inj h).symm⟩
    · rintro (⟨-, rfl⟩ | ⟨_, _, h, _⟩)
      · rfl
      · cases h
  | some id =>
    have hf' : id.isFlt = false := by cases id <;> first | rfl | exact hf.elim
    constructor
    · intro hv
      obtain ⟨z, hz, hv⟩ := Res.bind_ok.1 hv
      obtain ⟨i, rfl, hi⟩ := (getIndex_denotes h hf' false z).1 hz
      simp only [Int.toNat_natCast] at hv
      split at hv
      · cases hv
      · next hlt =>
        cases hv
        exact Or.inr ⟨id, i, rfl, hi, by omega, rfl⟩
    · rintro (⟨h, _⟩ | ⟨i, e, h1, h2, h3, rfl⟩)
      · cases h
      · cases h1
        refine Res.bind_ok.2 ⟨(e : Int), (getIndex_denotes h hf' false e).2 ⟨e, rfl, h2⟩, ?_⟩
        simp only [Int.toNat_natCast]
        rw [if_neg (by omega)]; rfl

theorem Span.bound {a : AxisSt} (h : a.Ok) {x y : Option Ident} {s n : Nat} (hs : Span a x y s n) :
    s + n ≤ a.len ∧ (n = 0 → a.len = 0) := by
  obtain ⟨h1, h2⟩ := hs
  rcases h2 with ⟨-, h2⟩ | ⟨id, e, -, h3, h4, h5⟩
  · refine ⟨by omega, fun hn => ?_⟩
    cases x with
    | none =>
      have : s = 0 := h1
      omega
    | some id =>
      have : s < a.len := Denotes.lt h h1
      omega
  · have := h3.lt h
    exact ⟨by omega, fun hn => by omega⟩

theorem sliceNames_init {a : AxisSt} (h : a.Ok) {s n : Nat} (hb : s + n ≤ a.len) :
    ∃ a', AxisSt.init n (sliceNames a s (s + n)) = .ok a' ∧ a'.Ok ∧ a'.len = n ∧
      a'.getNames = pick a.getNames (List.range' s n) := by
  have hb' : ∀ i ∈ List.range' s n, i < a.len := by
    intro i hi; rw [List.mem_range'_1] at hi; omega
  obtain ⟨a', h1, h2, h3, h4, -⟩ := init_pick h (List.nodup_range') hb'
  refine ⟨a', ?_, h2, by rw [h3, List.length_range'], h4⟩
  rw [← h1]
  have : sliceNames a s (s + n) = a.getNamesNoGen.map (fun l => pick l (List.range' s n)) := by
    unfold sliceNames
    cases hT : a.tbl with
    | none => simp [AxisSt.getNamesNoGen, hT]
    | some t =>
      have hl : t.inv.length = a.len := (h t hT).length_inv
      simp only [AxisSt.getNamesNoGen, hT, Option.map_some]
      rw [Nat.add_sub_cancel_left, take_drop_pick _ (by omega)]
  rw [this, List.length_range']

namespace Obj
variable {V : Type}

theorem mkView_shows {o : Obj V} (h : o.WF) {s n t m : Nat} (bp : s + n ≤ o.pts.len)
    (bf : t + m ≤ o.fts.len) (ep : n = 0 → o.pts.len = 0) (ef : m = 0 → o.fts.len = 0) :
    ∃ v, o.mkView s (s + n) t (t + m) = .ok v ∧ v.Shows o s n t m := by
  obtain ⟨p, hp1, hp2, hp3, hp4⟩ := sliceNames_init h.pts bp
  obtain ⟨f, hf1, hf2, hf3, hf4⟩ := sliceNames_init h.fts bf
  have hrows : View.rows o ⟨s, s + n, t, t + m, p, f⟩ =
      (pick o.data (List.range' s n)).map (fun row => pick row (List.range' t m)) := by
    unfold View.rows
    simp only [Nat.add_sub_cancel_left]
    rw [take_drop_pick _ (by rw [h.rows]; exact bp)]
    apply List.map_congr_left
    intro row hrow
    obtain ⟨j, _, hj⟩ := mem_pick.1 hrow
    have := h.cols row (List.mem_of_getElem? hj)
    exact take_drop_pick _ (by omega)
  have hw : Obj.Window o (View.asObj o ⟨s, s + n, t, t + m, p, f⟩) (List.range' s n) (List.range' t m) := by
    refine ⟨⟨?_, ?_, hp2, hf2⟩, hrows, ?_, ?_, hp4, hf4⟩
    · show (View.rows _ _).length = p.len
      rw [hrows, List.length_map, length_pick (by
        intro i hi; rw [List.mem_range'_1] at hi; rw [h.rows]; omega), List.length_range', hp3]
    · intro r hr
      show r.length = f.len
      have hr : r ∈ View.rows _ _ := hr
      rw [hrows] at hr
      obtain ⟨row, hrow, rfl⟩ := List.mem_map.1 hr
      obtain ⟨j, _, hj⟩ := mem_pick.1 hrow
      have := h.cols row (List.mem_of_getElem? hj)
      rw [length_pick (by intro i hi; rw [List.mem_range'_1] at hi; omega), List.length_range', hf3]
    · show p.len = _; rw [hp3, List.length_range']
    · show f.len = _; rw [hf3, List.length_range']
  refine ⟨⟨s, s + n, t, t + m, p, f⟩, ?_, ⟨bp, bf, ep, ef, rfl, rfl, rfl, rfl, hw, ?_, ?_, ?_⟩⟩
  · refine Res.bind_ok.2 ⟨p, by rw [Nat.add_sub_cancel_left]; exact hp1, Res.bind_ok.2 ⟨f, ?_, rfl⟩⟩
    rw [Nat.add_sub_cancel_left]; exact hf1
  · intro i j hi hj
    obtain ⟨row, h1, h2, h3⟩ := h.vector_point (i := s + i) (by omega)
    have hx : o.elem? (s + i) (t + j) = some (row[t + j]'(by omega)) := by
      unfold elem?
      rw [h1]
      exact List.getElem?_eq_getElem (by omega)
    refine ⟨_, hx, ?_⟩
    unfold View.get
    simp only [Nat.add_sub_cancel_left]
    rw [if_neg (by omega), if_neg (by omega)]
    simp only [Int.toNat_natCast]
    rw [Nat.add_comm i s, Nat.add_comm j t, hx]
  · intro i j hij
    unfold View.get
    simp only [Nat.add_sub_cancel_left]
    by_cases h1 : i < 0 ∨ (n : Int) ≤ i
    · rw [if_pos h1]
    · rw [if_neg h1, if_pos (by omega)]
  · obtain ⟨p', hp1', hp2', hp3', hp4', -⟩ := init_same hp2
    obtain ⟨f', hf1', hf2', hf3', hf4', -⟩ := init_same hf2
    refine ⟨⟨View.rows o ⟨s, s + n, t, t + m, p, f⟩, p', f'⟩, ?_, ?_⟩
    · unfold View.copy make
      simp only [Nat.add_sub_cancel_left]
      rw [← hp3, ← hf3]
      exact Res.bind_ok.2 ⟨p', hp1', Res.bind_ok.2 ⟨f', hf1', by rw [hp3, hf3]; rfl⟩⟩
    · refine ⟨⟨?_, ?_, hp2', hf2'⟩, hw.data, ?_, ?_, ?_, ?_⟩
      · rw [hp3']; exact hw.wf.rows
      · intro r hr; rw [hf3']; exact hw.wf.cols r hr
      · rw [hp3']; exact hw.pLen
      · rw [hf3']; exact hw.fLen
      · rw [hp4']; exact hw.pNames
      · rw [hf4']; exact hw.fNames

/-- **C40** `obj.view(..)`: shows exactly the described window (elements, names, copy), whatever the
identifiers; refused when an identifier denotes nothing or the end lies before the start. -/
theorem C40_view {o : Obj V} (h : o.WF) {ps pe fs fe : Option Ident} (h1 : noFlt ps) (h2 : noFlt pe)
    (h3 : noFlt fs) (h4 : noFlt fe) :
    (∀ s n t m, Span o.pts ps pe s n → Span o.fts fs fe t m →
      ∃ v, o.viewOf ps pe fs fe = .ok v ∧ v.Shows o s n t m) ∧
    ((∀ s n, ¬ Span o.pts ps pe s n) ∨ (∀ t m, ¬ Span o.fts fs fe t m) →
      ∃ e, o.viewOf ps pe fs fe = .error e) := by
  have conv : ∀ {a : AxisSt}, a.Ok → ∀ {x y : Option Ident}, noFlt x → noFlt y → ∀ {s e : Nat},
      viewStart a x = .ok s → viewEnd a s y = .ok e → ∃ n, e = s + n ∧ Span a x y s n := by
    intro a ha x y hx hy s e hs he
    have hs' := (viewStart_ok ha hx s).1 hs
    have hsl : s ≤ a.len := by
      cases x with
      | none => have : s = 0 := hs'; omega
      | some id => exact Nat.le_of_lt (Denotes.lt ha hs')
    rcases (viewEnd_ok ha hy s e).1 he with ⟨hy', rfl⟩ | ⟨i, e', hy', hd, hle, rfl⟩
    · exact ⟨a.len - s, by omega, hs', Or.inl ⟨hy', by omega⟩⟩
    · exact ⟨e' + 1 - s, by omega, hs', Or.inr ⟨i, e', hy', hd, hle, by omega⟩⟩
  have fwd : ∀ {a : AxisSt}, a.Ok → ∀ {x y : Option Ident}, noFlt x → noFlt y → ∀ {s n : Nat},
      Span a x y s n → viewStart a x = .ok s ∧ viewEnd a s y = .ok (s + n) := by
    intro a ha x y hx hy s n hsp
    refine ⟨(viewStart_ok ha hx s).2 hsp.1, (viewEnd_ok ha hy s _).2 ?_⟩
    rcases hsp.2 with ⟨hy', hl⟩ | ⟨i, e', hy', hd, hle, hl⟩
    · exact Or.inl ⟨hy', hl⟩
    · exact Or.inr ⟨i, e', hy', hd, hle, hl⟩
  constructor
  · intro s n t m hp hf
    obtain ⟨a1, a2⟩ := fwd h.pts h1 h2 hp
    obtain ⟨b1, b2⟩ := fwd h.fts h3 h4 hf
    obtain ⟨v, hv, hs⟩ := mkView_shows h (hp.bound h.pts).1 (hf.bound h.fts).1 (hp.bound h.pts).2 (hf.bound h.fts).2
    exact ⟨v, Res.bind_ok.2 ⟨_, a1, Res.bind_ok.2 ⟨_, a2, Res.bind_ok.2 ⟨_, b1, Res.bind_ok.2 ⟨_, b2, hv⟩⟩⟩⟩, hs⟩
  · intro hno
    cases hv : o.viewOf ps pe fs fe with
    | error e => exact ⟨e, rfl⟩
    | ok v =>
      exfalso
      obtain ⟨a, a1, hv⟩ := Res.bind_ok.1 hv
      obtain ⟨b, a2, hv⟩ := Res.bind_ok.1 hv
      obtain ⟨c, b1, hv⟩ := Res.bind_ok.1 hv
      obtain ⟨d, b2, hv⟩ := Res.bind_ok.1 hv
      rcases hno with hno | hno
      · obtain ⟨n, -, hs⟩ := conv h.pts h1 h2 a1 a2
        exact hno _ _ hs
      · obtain ⟨n, -, hs⟩ := conv h.fts h3 h4 b1 b2
        exact hno _ _ hs

end Obj

/-! ## Views of views -/

/-- A non-negative index or nothing. -/
def natArg : Option Ident → Prop
  | none => True
  | some (.int z) => 0 ≤ z
  | _ => False

theorem natArg.noFlt {x : Option Ident} (h : natArg x) : noFlt x := by
  cases x with
  | none => trivial
  | some i => cases i <;> first | trivial | exact h.elim

theorem adjust_span {src a : AxisSt} (hs : src.Ok) (ha : a.Ok) {s n s' n' : Nat} (hl : a.len = n)
    (hb : s + n ≤ src.len) (he : n = 0 → src.len = 0) {x y : Option Ident} (hx : natArg x) (hy : natArg y)
    (hsp : Span a x y s' n') :
    ∃ x' y', View.adjust src s s x = .ok x' ∧ View.adjust src s (s + n - 1) y = .ok y' ∧
      noFlt x' ∧ noFlt y' ∧ Span src x' y' (s + s') n' := by
  have hbd := hsp.bound ha
  have den : ∀ {id : Ident} {i : Nat}, natArg (some id) → Denotes a id i →
      View.adjust src s s (some id) = .ok (some (.int ((i : Int) + s))) ∧
      (∀ d, View.adjust src s d (some id) = .ok (some (.int ((i : Int) + s)))) ∧
      i < n := by
    intro id i hna hd
    cases id with
    | str _ => exact hna.elim
    | flt _ => exact hna.elim
    | int z =>
      have hz : 0 ≤ z := hna
      obtain ⟨h1, h2⟩ := hd
      have hzi : z = i := by omega
      subst hzi
      have hg : src.getIndex (.int (i : Int)) = .ok (i : Int) :=
        (getIndex_denotes hs (id := .int (i : Int)) rfl false i).2 ⟨i, rfl, by omega, Or.inl rfl⟩
      have : ∀ d, View.adjust src s d (some (.int (i : Int))) = .ok (some (.int ((i : Int) + s))) := by
        intro d
        show (src.getIndex (.int (i : Int))).map _ = _
        rw [hg]; rfl
      exact ⟨this _, this, by omega⟩
  have dsrc : ∀ i : Nat, i < n → Denotes src (.int ((i : Int) + s)) (s + i) := by
    intro i hi
    exact ⟨by omega, Or.inl (by push_cast; omega)⟩
  obtain ⟨h1, h2⟩ := hsp
  have hx' : ∃ x', View.adjust src s s x = .ok x' ∧ noFlt x' ∧ EndAt src 0 x' (s + s') := by
    cases x with
    | none =>
      have h1 : s' = 0 := h1
      subst h1
      by_cases h0 : src.len = 0
      · exact ⟨none, by simp [View.adjust, h0], trivial, by show s + 0 = 0; omega⟩
      · refine ⟨some (.int s), by simp [View.adjust, h0], trivial, ?_⟩
        have : n ≠ 0 := fun hn => h0 (he hn)
        show Denotes src (.int s) (s + 0)
        exact ⟨by omega, Or.inl (by push_cast; omega)⟩
    | some id =>
      obtain ⟨e1, -, e3⟩ := den hx h1
      exact ⟨_, e1, trivial, dsrc _ e3⟩
  have hy' : ∃ y', View.adjust src s (s + n - 1) y = .ok y' ∧ noFlt y' ∧
      ((y' = none ∧ (s + s') + n' = src.len) ∨
        ∃ id e, y' = some id ∧ Denotes src id e ∧ s + s' ≤ e ∧ (s + s') + n' = e + 1) := by
    rcases h2 with ⟨rfl, h3⟩ | ⟨id, e, rfl, h3, h4, h5⟩
    · by_cases h0 : src.len = 0
      · exact ⟨none, by simp [View.adjust, h0], trivial, Or.inl ⟨rfl, by omega⟩⟩
      · have : n ≠ 0 := fun hn => h0 (he hn)
        have hn' : n' ≠ 0 := fun hn' => this (by have := hbd.2 hn'; omega)
        refine ⟨some (.int ((s + n - 1 : Nat) : Int)), by simp [View.adjust, h0], trivial, Or.inr ⟨_, s + n - 1, rfl, ?_, by omega, by omega⟩⟩
        exact ⟨by omega, Or.inl rfl⟩
    · obtain ⟨-, e2, e3⟩ := den hy h3
      exact ⟨_, e2 _, trivial, Or.inr ⟨_, s + e, rfl, dsrc _ e3, by omega, by omega⟩⟩
  obtain ⟨x', a1, a2, a3⟩ := hx'
  obtain ⟨y', b1, b2, b3⟩ := hy'
  exact ⟨x', y', a1, b1, a2, b2, a3, b3⟩

namespace View
variable {V : Type}

theorem Shows.lens {o : Obj V} {v : View} {s n t m : Nat} (hv : v.Shows o s n t m) :
    v.pts.Ok ∧ v.fts.Ok ∧ v.pts.len = n ∧ v.fts.len = m := by
  refine ⟨hv.window.wf.pts, hv.window.wf.fts, ?_, ?_⟩
  · have := hv.window.pLen; rwa [List.length_range'] at this
  · have := hv.window.fLen; rwa [List.length_range'] at this

/-- **C40** Views of views compose, for arguments that are non-negative indices of the view or
omitted. -/
theorem C40_view_of_view_partial {o : Obj V} (h : o.WF) {v : View} {s n t m : Nat}
    (hv : v.Shows o s n t m) {ps pe fs fe : Option Ident} (h1 : natArg ps) (h2 : natArg pe)
    (h3 : natArg fs) (h4 : natArg fe) {s' n' t' m' : Nat}
    (hp : Span v.pts ps pe s' n') (hf : Span v.fts fs fe t' m') :
    ∃ w, View.view o v ps pe fs fe = .ok w ∧ w.Shows o (s + s') n' (t + t') m' := by
  obtain ⟨lp, lf, lpn, lfm⟩ := hv.lens
  obtain ⟨x, y, a1, a2, a3, a4, a5⟩ := adjust_span h.pts lp lpn hv.bp hv.ep h1 h2 hp
  obtain ⟨z, w, b1, b2, b3, b4, b5⟩ := adjust_span h.fts lf lfm hv.bf hv.ef h3 h4 hf
  obtain ⟨u, hu, hs⟩ := (Obj.C40_view h a3 a4 b3 b4).1 _ _ _ _ a5 b5
  refine ⟨u, ?_, hs⟩
  unfold View.view
  rw [hv.ps, hv.pe, hv.fs, hv.fe]
  exact Res.bind_ok.2 ⟨_, a1, Res.bind_ok.2 ⟨_, a2, Res.bind_ok.2 ⟨_, b1, Res.bind_ok.2 ⟨_, b2, hu⟩⟩⟩⟩

/-- **C40** `view.pointView(id)` shows exactly the point of the view that `id` denotes, and is
refused when it denotes none: here names and negative indices are taken relative to the view. -/
theorem C40_pointView_of_view {o : Obj V} (h : o.WF) {v : View} {s n t m : Nat}
    (hv : v.Shows o s n t m) {id : Ident} (hid : id.isFlt = false) :
    (∀ i, Denotes v.pts id i → ∃ w, View.pointView o v id = .ok w ∧ w.Shows o (s + i) 1 t m) ∧
    ((∀ i, ¬ Denotes v.pts id i) → ∃ e, View.pointView o v id = .error e) := by
  obtain ⟨lp, lf, lpn, lfm⟩ := hv.lens
  constructor
  · intro i hi
    have hlt := hi.lt lp
    obtain ⟨w, hw, hs⟩ := C40_view_of_view_partial h hv (ps := some (.int i)) (pe := some (.int i)) (fs := none)
      (fe := none) (s' := i) (n' := 1) (t' := 0) (m' := m) (by show (0 : Int) ≤ i; omega)
      (by show (0 : Int) ≤ i; omega) trivial trivial
      ⟨⟨hlt, Or.inl rfl⟩, Or.inr ⟨_, i, rfl, ⟨hlt, Or.inl rfl⟩, Nat.le_refl _, rfl⟩⟩
      ⟨rfl, Or.inl ⟨rfl, by omega⟩⟩
    refine ⟨w, ?_, hs⟩
    unfold pointView
    rw [if_neg (by omega)]
    exact Res.bind_ok.2 ⟨_, (getIndex_denotes lp hid false i).2 ⟨i, rfl, hi⟩, hw⟩
  · intro hno
    unfold pointView
    by_cases h0 : v.pts.len = 0
    · rw [if_pos h0]; exact ⟨_, rfl⟩
    · rw [if_neg h0]
      cases hg : v.pts.getIndex id with
      | error e => exact ⟨e, rfl⟩
      | ok z =>
        obtain ⟨i, -, hi⟩ := (getIndex_denotes lp hid false z).1 hg
        exact (hno i hi).elim

/-- **C40** `view.featureView(id)`, likewise. -/
theorem C40_featureView_of_view {o : Obj V} (h : o.WF) {v : View} {s n t m : Nat}
    (hv : v.Shows o s n t m) {id : Ident} (hid : id.isFlt = false) :
    (∀ i, Denotes v.fts id i → ∃ w, View.featureView o v id = .ok w ∧ w.Shows o s n (t + i) 1) ∧
    ((∀ i, ¬ Denotes v.fts id i) → ∃ e, View.featureView o v id = .error e) := by
  obtain ⟨lp, lf, lpn, lfm⟩ := hv.lens
  constructor
  · intro i hi
    have hlt := hi.lt lf
    obtain ⟨w, hw, hs⟩ := C40_view_of_view_partial h hv (fs := some (.int i)) (fe := some (.int i)) (ps := none)
      (pe := none) (s' := 0) (n' := n) (t' := i) (m' := 1) trivial trivial (by show (0 : Int) ≤ i; omega)
      (by show (0 : Int) ≤ i; omega)
      ⟨rfl, Or.inl ⟨rfl, by omega⟩⟩
      ⟨⟨hlt, Or.inl rfl⟩, Or.inr ⟨_, i, rfl, ⟨hlt, Or.inl rfl⟩, Nat.le_refl _, rfl⟩⟩
    refine ⟨w, ?_, hs⟩
    unfold featureView
    rw [if_neg (by omega)]
    exact Res.bind_ok.2 ⟨_, (getIndex_denotes lf hid false i).2 ⟨i, rfl, hi⟩, hw⟩
  · intro hno
    unfold featureView
    by_cases h0 : v.fts.len = 0
    · rw [if_pos h0]; exact ⟨_, rfl⟩
    · rw [if_neg h0]
      cases hg : v.fts.getIndex id with
      | error e => exact ⟨e, rfl⟩
      | ok z =>
        obtain ⟨i, -, hi⟩ := (getIndex_denotes lf hid false z).1 hg
        exact (hno i hi).elim

/-! ## Read only -/

/-- **C40** Assigning through a view of a List never changes the source: it is refused unless the
keys address no cell at all. -/
theorem C40_list_view_read_only (o : Obj V) (v : View) (x y : AxKey) (val : V) :
    (View.setitem .list o v x y val).1 = o ∧
      ((∃ e, (View.setitem .list o v x y val).2 = .error e) ∨
        (∃ l, axisKey v.pts x = .ok (some l) ∧ l = []) ∨ (∃ l, axisKey v.fts y = .ok (some l) ∧ l = [])) := by
  have hset : ∀ a b, (View.setElem .list o v a b val).1 = o ∧ ∃ e, (View.setElem .list o v a b val).2 = .error e := by
    intro a b
    unfold setElem
    simp only []
    split <;> exact ⟨rfl, _, rfl⟩
  have hkey : ∀ {a : AxisSt} {k : AxKey} {l : List Int} , Obj.setKey a k = .ok (.inr (some l)) →
      axisKey a k = .ok (some l) := by
    intro a k l hk
    cases k with
    | single i =>
      obtain ⟨z, _, hz⟩ := Res.map_ok.1 hk
      cases hz
    | multi k =>
      obtain ⟨z, hz, hz'⟩ := Res.map_ok.1 hk
      cases hz'
      exact hz
  unfold setitem
  cases hx : Obj.setKey v.pts x with
  | error e => exact ⟨rfl, Or.inl ⟨e, rfl⟩⟩
  | ok a =>
    cases hy : Obj.setKey v.fts y with
    | error e => exact ⟨rfl, Or.inl ⟨e, rfl⟩⟩
    | ok b =>
      have many : ∀ r : Obj V × Res Unit, r = (match Obj.setIter a with
        | .error e => (o, .error e)
        | .ok xs => if xs.isEmpty then (o, .ok ()) else match Obj.setIter b with
          | .error e => (o, .error e)
          | .ok ys => setLoop .list v val (Obj.cells xs ys) o) → r.1 = o ∧ ((∃ e, r.2 = .error e) ∨
        (∃ l, axisKey v.pts x = .ok (some l) ∧ l = []) ∨ (∃ l, axisKey v.fts y = .ok (some l) ∧ l = [])) := by
        rintro r rfl
        cases ha : Obj.setIter a with
        | error e => exact ⟨rfl, Or.inl ⟨e, rfl⟩⟩
        | ok xs =>
          have ha' : a = .inr (some xs) := by
            cases a with
            | inl i => cases ha
            | inr l => cases l with
              | none => cases ha
              | some l => cases ha; rfl
          subst ha'
          simp only []
          by_cases he : xs.isEmpty = true
          · rw [if_pos he]
            exact ⟨rfl, Or.inr (Or.inl ⟨xs, hkey hx, List.isEmpty_iff.1 he⟩)⟩
          · rw [if_neg he]
            cases hb : Obj.setIter b with
            | error e => exact ⟨rfl, Or.inl ⟨e, rfl⟩⟩
            | ok ys =>
              have hb' : b = .inr (some ys) := by
                cases b with
                | inl i => cases hb
                | inr l => cases l with
                  | none => cases hb
                  | some l => cases hb; rfl
              subst hb'
              simp only []
              cases hc : Obj.cells xs ys with
              | nil =>
                refine ⟨rfl, Or.inr (Or.inr ⟨ys, hkey hy, ?_⟩)⟩
                cases xs with
                | nil => exact absurd rfl he
                | cons x xs =>
                  cases ys with
                  | nil => rfl
                  | cons y ys => simp [Obj.cells] at hc
              | cons p ps =>
                obtain ⟨e1, e, e2⟩ := hset p.1 p.2
                simp only [setLoop, e2]
                exact ⟨e1, Or.inl ⟨e, rfl⟩⟩
      simp only []
      cases a with
      | inl i =>
        cases b with
        | inl j => exact ⟨(hset i j).1, Or.inl (hset i j).2⟩
        | inr b => exact many _ rfl
      | inr a => exact many _ rfl

/-- **C40 does not hold in general (read only).** Views do not override item assignment: assigning
one element through a view of a Matrix changes the source, for every view and every element. -/
theorem C40_matrix_view_read_only_violated {o : Obj V} (h : o.WF) {v : View} {s n t m : Nat}
    (hv : v.Shows o s n t m) {i j : Nat} (hi : i < n) (hj : j < m) (val : V) :
    ∃ o', View.setitem .matrix o v (.single (.int i)) (.single (.int j)) val = (o', .ok ()) ∧
      Obj.Written o o' [s + i] [t + j] val := by
  obtain ⟨lp, lf, lpn, lfm⟩ := hv.lens
  have e1 := (getIndex_denotes lp (id := .int (i : Int)) rfl true i).2 ⟨i, rfl, by omega, Or.inl rfl⟩
  have e2 := (getIndex_denotes lf (id := .int (j : Int)) rfl true j).2 ⟨j, rfl, by omega, Or.inl rfl⟩
  have p1 : pyIndex n (i : Int) = .ok i := by unfold pyIndex; rw [if_pos (by omega)]; rfl
  have p2 : pyIndex m (j : Int) = .ok j := by unfold pyIndex; rw [if_pos (by omega)]; rfl
  have hbp := hv.bp
  have hbf := hv.bf
  refine ⟨{ o with data := o.data.modify (s + i) (fun r => r.set (t + j) val) }, ?_, Obj.wf_set h _ _ _, rfl, rfl, ?_⟩
  · simp only [setitem, Obj.setKey, e1, e2, Except.map, setElem, hv.ps, hv.pe, hv.fs, hv.fe,
      Nat.add_sub_cancel_left, p1, p2]
  · intro a b _ _
    rw [Obj.elem?_set o (s + i) (t + j) val a b h (by omega) (by omega)]
    simp only [List.mem_singleton]

/-! ## Examples and counterexamples -/

/-- What a view shows, `none` when it was refused. -/
def shown (o : Obj Nat) (r : Res View) : Option (List (List Nat) × List (Option String)) :=
  match r with
  | .ok v => some (v.rows o, v.pts.getNames)
  | .error _ => none

/-- A view of a view. -/
def twice (o : Obj Nat) (a b c d : Option Ident) : Res View := do
  let v ← o.viewOf (some (.int 1)) (some (.int 2)) (some (.int 1)) none
  View.view o v a b c d

example : shown Obj.giEx (Obj.giEx.viewOf (some (.str "b")) (some (.int (-2))) (some (.int 1)) none) =
    some ([[11, 12], [21, 22]], [some "b", some "c"]) := by decide
example : shown Obj.giEx (twice Obj.giEx (some (.int 1)) none (some (.int 0)) (some (.int 0))) =
    some ([[21]], [some "c"]) := by decide
example : shown Obj.giEx (Obj.giEx.viewOf (some (.int 2)) (some (.int 1)) none none) = none := by decide

/-- **C40 does not hold in general (views of views).** A view of a view looks identifiers up in the
source and then adds the offset of the view.  For a view showing the points b, c of a, b, c, d:
asking it for 'b' gives c, asking it for its last point is refused, asking it for 'c' gives d, which
the view does not contain, and so does asking it for index 2. -/
theorem C40_view_of_view_violated :
    shown Obj.giEx (twice Obj.giEx (some (.str "b")) (some (.str "b")) none none) = some ([[21, 22]], [some "c"]) ∧
    shown Obj.giEx (twice Obj.giEx (some (.int (-1))) none none none) = none ∧
    shown Obj.giEx (twice Obj.giEx (some (.str "c")) (some (.str "c")) none none) = some ([[31, 32]], [some "d"]) ∧
    shown Obj.giEx (twice Obj.giEx (some (.int 2)) (some (.int 2)) none none) = some ([[31, 32]], [some "d"]) := by
  decide

end View
end Nimble
