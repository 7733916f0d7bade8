import Verif.Lemmas.Insert
import Verif.Props.Permute
import Verif.Props.Binary
import Verif.Props.Names

/-!
# Insert and append: C11, C12, C47
-/

namespace Nimble
open Obj
variable {V : Type}

/-- A fully named axis, as a list of strings. -/
theorem exists_strings {l : List (Option String)} (h : none ∉ l) : ∃ ss : List String, l = ss.map some := by
  induction l with
  | nil => exact ⟨[], rfl⟩
  | cons x l ih =>
    simp only [List.mem_cons, not_or] at h
    obtain ⟨ss, rfl⟩ := ih h.2
    cases x with
    | none => exact absurd rfl h.1
    | some s => exact ⟨s :: ss, rfl⟩

/-- Permuting a fully named axis by a rearrangement of its names. -/
theorem permute_by_full_names {o : Obj V} (h : o.WF) (ax : Ax) {ss rs : List String}
    (hrs : (o.axis ax).getNames = rs.map some) (hp : ss.Perm rs) :
    ∃ r, o.permute ax (ss.map .str) = .ok r ∧ Rearranged o r ax (ss.map (fun s => rs.idxOf s)) ∧
      SelectedSpec o r ax (ss.map (fun s => rs.idxOf s)) ∧ (r.axis ax).getNames = ss.map some := by
  have hok := h.axisOk ax
  have hlen : rs.length = (o.axis ax).len := by
    have := hok.length_getNames; rw [hrs] at this; simpa using this
  have hnd : rs.Nodup := by
    have := hok.reduceOption_nodup
    rwa [hrs, reduceOption_map_some] at this
  have hidx : ∀ s ∈ ss, (o.axis ax).getIndex (.str s) = .ok ((rs.idxOf s : Nat) : Int) := by
    intro s hs
    have hs' := hp.mem_iff.1 hs
    rw [← hok.getName_iff, hrs, List.getElem?_map,
      List.getElem?_eq_getElem (List.idxOf_lt_length_of_mem hs'), List.getElem_idxOf]
    rfl
  have hmap : (ss.map Ident.str).map (fun id => (o.axis ax).getIndex id) =
      (ss.map (fun s => rs.idxOf s)).map (fun (i : Nat) => (.ok (i : Int) : Res Int)) := by
    rw [List.map_map, List.map_map]
    exact List.map_congr_left (fun s hs => hidx s hs)
  have hps : (ss.map (fun s => rs.idxOf s)).Perm (List.range (o.axis ax).len) := by
    refine perm_range_of_nodup ?_ ?_ ?_
    · refine List.Nodup.map_on ?_ (hp.nodup_iff.2 hnd)
      intro x hx y hy he
      exact (List.idxOf_inj (hp.mem_iff.1 hx)).1 he
    · intro i hi
      obtain ⟨s, hs, rfl⟩ := List.mem_map.1 hi
      rw [← hlen]; exact List.idxOf_lt_length_of_mem (hp.mem_iff.1 hs)
    · rw [List.length_map, hp.length_eq, hlen]
  obtain ⟨r, hr, hs⟩ := applyOrder_spec h ax hps
  have hres : o.permute ax (ss.map .str) = .ok r := by
    unfold permute
    rw [(resolveIdents_ok_iff _ _ _ hok).2 hmap]
    simp only [bind, Except.bind]
    rw [if_neg (by simpa using hps.length_eq), if_neg (by simpa using perm_nodup hps)]
    exact hr
  refine ⟨r, hres, rearranged_of_selected h hps hs, hs, ?_⟩
  rw [hs.names, hrs, pick_map]
  congr 1
  apply List.ext_getElem?
  intro k
  rw [getElem?_pick (by rw [hlen]; exact perm_bound hps), List.getElem?_map]
  cases hk : ss[k]? with
  | none => rfl
  | some s =>
    have hm := hp.mem_iff.1 (List.mem_of_getElem? hk)
    simp only [Option.map_some, Option.bind_some]
    rw [List.getElem?_eq_getElem (List.idxOf_lt_length_of_mem hm), List.getElem_idxOf]

/-- When two objects can be joined along one axis, in terms of the names of the other axis: they
are equal, or one side has none, or both are complete and the same up to order. -/
def OffCompatible (l r : List (Option String)) : Prop :=
  l = r ∨ (∀ x ∈ l, x = none) ∨ (∀ x ∈ r, x = none) ∨ (none ∉ l ∧ l.Perm r)

/-- What is actually inserted: the argument itself, or – when both off-axes are named – the
argument with its off-axis rearranged to the caller's names. -/
structure Aligned (o other ins : Obj V) (ax : Ax) : Prop where
  wf : ins.WF
  len : (ins.axis ax).len = (other.axis ax).len
  names : (ins.axis ax).getNames = (other.axis ax).getNames
  offLen : (ins.axis ax.off).len = (other.axis ax.off).len
  how : (ins = other ∧ ((o.axis ax.off).getNames = (other.axis ax.off).getNames ∨
          (∀ x ∈ (o.axis ax.off).getNames, x = none) ∨ (∀ x ∈ (other.axis ax.off).getNames, x = none))) ∨
    ((ins.axis ax.off).getNames = (o.axis ax.off).getNames ∧
      ∃ order, Rearranged other ins ax.off order)

theorem permuteByNames_eq (o : Obj V) (ax : Ax) (ss : List String) :
    o.permuteByNames ax (ss.map some) = o.permute ax (ss.map .str) := by
  unfold permuteByNames permute
  rw [resolveNames_eq]

theorem permuteByNames_ok {o r : Obj V} (h : o.WF) {ax : Ax} {l : List (Option String)}
    (hr : o.permuteByNames ax l = .ok r) : none ∉ l ∧ l.Perm (o.axis ax).getNames := by
  have hn : none ∉ l := by
    intro hm
    obtain ⟨e, he⟩ := resolveNames_none (a := o.axis ax) hm
    simp [permuteByNames, he, bind, Except.bind] at hr
  obtain ⟨ss, rfl⟩ := exists_strings hn
  refine ⟨hn, ?_⟩
  rw [permuteByNames_eq] at hr
  obtain ⟨idx, hi, hp⟩ := (C09_permute_iff h ax _).1 ⟨r, hr⟩
  have hlen : ss.length = idx.length := by simpa using congrArg List.length hi
  have hb : ∀ i ∈ idx, i < (o.axis ax).getNames.length := by
    rw [(h.axisOk ax).length_getNames]; exact perm_bound hp
  have : ss.map some = pick (o.axis ax).getNames idx := by
    apply List.ext_getElem?
    intro k
    rw [getElem?_pick hb, List.getElem?_map]
    by_cases hk : k < ss.length
    · have hk2 : k < idx.length := by omega
      have := congrArg (fun x => x[k]?) hi
      simp only [List.map_map, List.getElem?_map, List.getElem?_eq_getElem hk,
        List.getElem?_eq_getElem hk2, Option.map_some, Function.comp, Option.some.injEq] at this
      rw [List.getElem?_eq_getElem hk, List.getElem?_eq_getElem hk2, Option.bind_some,
        ((h.axisOk ax).getName_iff _ _).2 this]
      rfl
    · rw [List.getElem?_eq_none (by omega), List.getElem?_eq_none (by omega)]; rfl
  rw [this]
  exact pick_perm (by rw [(h.axisOk ax).length_getNames]; exact hp)

theorem alignNames_spec {o other : Obj V} (h : o.WF) (ho : other.WF) (ax : Ax)
    (hoff : (o.axis ax.off).len = (other.axis ax.off).len) :
    ((∃ ins, alignNames o other ax = .ok ins) ↔
      OffCompatible (o.axis ax.off).getNames (other.axis ax.off).getNames) ∧
    ∀ ins, alignNames o other ax = .ok ins → Aligned o other ins ax := by
  have hl := h.axisOk ax.off
  have hr := ho.axisOk ax.off
  have dl := hl.allDefault_iff
  have dr := hr.allDefault_iff
  have same : ∀ ins, (.ok other : Res (Obj V)) = .ok ins →
      ((o.axis ax.off).getNames = (other.axis ax.off).getNames ∨
          (∀ x ∈ (o.axis ax.off).getNames, x = none) ∨ (∀ x ∈ (other.axis ax.off).getNames, x = none)) →
      Aligned o other ins ax := by
    intro ins he hc; cases he
    exact ⟨ho, rfl, rfl, rfl, Or.inl ⟨rfl, hc⟩⟩
  unfold alignNames
  simp only []
  split
  · next hcond =>
    simp only [Bool.and_eq_true, Bool.not_eq_true', Bool.or_eq_false_iff, decide_eq_true_eq] at hcond
    obtain ⟨_, ⟨h1, h2⟩, h3⟩ := hcond
    have key : (∃ ins, other.permuteByNames ax.off (o.axis ax.off).getNames = .ok ins) ↔
        (none ∉ (o.axis ax.off).getNames ∧
          (o.axis ax.off).getNames.Perm (other.axis ax.off).getNames) := by
      constructor
      · rintro ⟨ins, hi⟩; exact permuteByNames_ok ho hi
      · rintro ⟨hn, hp⟩
        obtain ⟨ss, hss⟩ := exists_strings hn
        obtain ⟨rs, hrs⟩ := exists_strings (l := (other.axis ax.off).getNames)
          (fun hm => hn (hp.mem_iff.2 hm))
        have hpp : ss.Perm rs := by
          rw [hss, hrs] at hp
          have := hp.filterMap id
          simpa using this
        obtain ⟨ins, hi, _⟩ := permute_by_full_names ho ax.off hrs hpp
        exact ⟨ins, by rw [hss, permuteByNames_eq]; exact hi⟩
    constructor
    · rw [key]
      constructor
      · exact fun hh => Or.inr (Or.inr (Or.inr hh))
      · rintro (hh | hh | hh | hh)
        · exact absurd hh h3
        · rw [dl.2 hh] at h1; cases h1
        · rw [dr.2 hh] at h2; cases h2
        · exact hh
    · intro ins hi
      obtain ⟨hn, hp⟩ := key.1 ⟨ins, hi⟩
      obtain ⟨ss, hss⟩ := exists_strings hn
      obtain ⟨rs, hrs⟩ := exists_strings (l := (other.axis ax.off).getNames)
          (fun hm => hn (hp.mem_iff.2 hm))
      have hpp : ss.Perm rs := by
        rw [hss, hrs] at hp
        have := hp.filterMap id
        simpa using this
      obtain ⟨ins', hi', hre, hsp, hnm⟩ := permute_by_full_names ho ax.off hrs hpp
      rw [hss, permuteByNames_eq, hi'] at hi
      cases hi
      refine ⟨hre.wf, ?_, ?_, hre.len, Or.inr ⟨by rw [hnm, hss], _, hre⟩⟩
      · have := hre.offLen; cases ax <;> exact this
      · have := hre.offNames; cases ax <;> exact this
  · next hcond =>
    have hc : (o.axis ax.off).getNames = (other.axis ax.off).getNames ∨
          (∀ x ∈ (o.axis ax.off).getNames, x = none) ∨ (∀ x ∈ (other.axis ax.off).getNames, x = none) := by
      by_contra hcon
      apply hcond
      simp only [not_or] at hcon
      obtain ⟨c1, c2, c3⟩ := hcon
      have n1 : (o.axis ax.off).tbl.isSome = true := by
        cases ht : (o.axis ax.off).tbl with
        | none => exact absurd (default_of_none ht) c2
        | some t => rfl
      have n2 : (other.axis ax.off).tbl.isSome = true := by
        cases ht : (other.axis ax.off).tbl with
        | none => exact absurd (default_of_none ht) c3
        | some t => rfl
      have a1 : (o.axis ax.off).allDefaultNames = false := by
        cases hb : (o.axis ax.off).allDefaultNames with
        | false => rfl
        | true => exact absurd (dl.1 hb) c2
      have a2 : (other.axis ax.off).allDefaultNames = false := by
        cases hb : (other.axis ax.off).allDefaultNames with
        | false => rfl
        | true => exact absurd (dr.1 hb) c3
      simp [n1, n2, a1, a2, c1]
    refine ⟨⟨fun _ => ?_, fun _ => ⟨other, rfl⟩⟩, fun ins hi => same ins hi hc⟩
    rcases hc with hc | hc | hc
    · exact Or.inl hc
    · exact Or.inr (Or.inl hc)
    · exact Or.inr (Or.inr (Or.inl hc))

theorem validateDisjoint_iff {a b : AxisSt} (ha : a.Ok) (hb : b.Ok) :
    validateDisjoint a b = .ok () ↔ NamesDisjoint a.getNames b.getNames := by
  unfold validateDisjoint
  cases h1 : a.tbl with
  | none =>
    simp only [true_iff]
    intro s hs; have := default_of_none h1 _ hs; cases this
  | some ta =>
    cases h2 : b.tbl with
    | none =>
      simp only [true_iff]
      intro s _ hs; have := default_of_none h2 _ hs; cases this
    | some tb =>
      have hx : namesIntersect ta tb = true ↔
          ∃ n ∈ PyDict.keys ta.names, n ∈ PyDict.keys tb.names := by simp [namesIntersect]
      simp only []
      split
      · next hc =>
        obtain ⟨n, h3, h4⟩ := hx.1 hc
        simp only [reduceCtorEq, false_iff]
        intro hd
        exact hd n ((ha.mem_names h1 n).1 h3) ((hb.mem_names h2 n).1 h4)
      · next hc =>
        simp only [true_iff]
        intro s hs hs'
        exact hc (hx.2 ⟨s, (ha.mem_names h1 s).2 hs, (hb.mem_names h2 s).2 hs'⟩)

theorem validateReordered_of_compatible {a b : AxisSt} (ha : a.Ok) (hb : b.Ok)
    (na : a.tbl.isSome = true) (nb : b.tbl.isSome = true)
    (hc : OffCompatible a.getNames b.getNames) : validateReordered a b = .ok () := by
  unfold validateReordered
  rcases hc with hc | hc | hc | ⟨h1, h2⟩
  · rw [hc, inconsistentNames_self]; rfl
  · rw [(inconsistentNames_all_none (l := b.getNames) hc).2]; rfl
  · rw [(inconsistentNames_all_none (l := a.getNames) hc).1]; rfl
  · split
    · have e1 : a.anyDefaultNames = false := by
        cases hx : a.anyDefaultNames with
        | false => rfl
        | true => exact absurd ((ha.anyDefault_iff_mem na).1 hx) h1
      have e2 : b.anyDefaultNames = false := by
        cases hx : b.anyDefaultNames with
        | false => rfl
        | true => exact absurd (h2.mem_iff.2 ((hb.anyDefault_iff_mem nb).1 hx)) h1
      rw [e1, e2]
      simp only [Bool.or_false, Bool.false_eq_true, if_false]
      rw [if_neg]
      simp only [List.any_eq_true, Bool.not_eq_true', decide_eq_false_iff_not, not_exists, not_and, not_not]
      intro x hx; exact h2.mem_iff.1 hx
    · rfl

/-- C11. Positions: `append` works at the end; `insert` accepts the length of a non-empty axis
(meaning the end) and every identifier of an existing element. -/
theorem C11_insert_position {a : AxisSt} (h : a.Ok) (id : Ident) (i : Nat) :
    insertPos a none = .ok a.len ∧
    (insertPos a (some id) = .ok i ↔
      (id = .int a.len ∧ a.len ≠ 0 ∧ i = a.len) ∨ (id ≠ .int a.len ∧ a.getIndex id = .ok (i : Int))) := by
  refine ⟨rfl, ?_⟩
  simp only [insertPos]
  by_cases hc : id = .int a.len ∧ a.len ≠ 0
  · rw [if_pos hc]
    constructor
    · intro he; cases he; exact Or.inl ⟨hc.1, hc.2, rfl⟩
    · rintro (⟨_, _, rfl⟩ | ⟨h1, _⟩)
      · rfl
      · exact absurd hc.1 h1
  · rw [if_neg hc]
    have h0 : id = .int a.len → a.len = 0 := by
      intro he; by_contra hn; exact hc ⟨he, hn⟩
    constructor
    · intro he
      cases hg : a.getIndex id with
      | error e => rw [hg] at he; cases he
      | ok j =>
        rw [hg] at he
        simp only [Except.map, Except.ok.injEq] at he
        have hb := getIndex_bound h hg
        refine Or.inr ⟨?_, ?_⟩
        · intro hid; have := h0 hid; omega
        · congr 1; omega
    · rintro (⟨h1, h2, _⟩ | ⟨_, h2⟩)
      · exact absurd ⟨h1, h2⟩ hc
      · rw [h2]; simp [Except.map]

theorem insertPos_le {a : AxisSt} (h : a.Ok) {before : Option Ident} {i : Nat}
    (hp : insertPos a before = .ok i) : i ≤ a.len := by
  cases before with
  | none => cases hp; exact Nat.le_refl _
  | some id =>
    rcases ((C11_insert_position h id i).2).1 hp with ⟨_, _, rfl⟩ | ⟨_, h2⟩
    · exact Nat.le_refl _
    · have := getIndex_bound h h2; omega

theorem insert_ok {o other : Obj V} (h : o.WF) (ho : other.WF) {ax : Ax} {before : Option Ident}
    {i : Nat} (hi : insertPos (o.axis ax) before = .ok i) {r : Obj V}
    (hr : o.insert ax before other = .ok r) :
    ∃ ins, Aligned o other ins ax ∧ alignNames o other ax = .ok ins ∧
      (o.axis ax.off).len = (other.axis ax.off).len ∧
      NamesDisjoint (o.axis ax).getNames (other.axis ax).getNames ∧
      r.WF ∧ (r.axis ax).len = (o.axis ax).len + (other.axis ax).len ∧
      r.axis ax.off = o.axis ax.off ∧
      r.lines ax = (o.lines ax).take i ++ ins.lines ax ++ (o.lines ax).drop i := by
  unfold Obj.insert at hr
  simp only [hi, bind, Except.bind] at hr
  cases hv : validateInsertable o other ax with
  | error e => rw [hv] at hr; cases hr
  | ok u =>
    simp only [hv] at hr
    have hoff : (o.axis ax.off).len = (other.axis ax.off).len := by
      by_contra hne
      simp [validateInsertable, hne] at hv
    have hdis : NamesDisjoint (o.axis ax).getNames (other.axis ax).getNames := by
      rw [← validateDisjoint_iff (h.axisOk ax) (ho.axisOk ax)]
      unfold validateInsertable at hv
      rw [if_neg (by simpa using hoff)] at hv
      cases hx : validateDisjoint (o.axis ax) (other.axis ax) with
      | error e => rw [hx] at hv; simp [bind, Except.bind] at hv
      | ok u => rfl
    cases hal : alignNames o other ax with
    | error e => rw [hal] at hr; cases hr
    | ok ins =>
      simp only [hal] at hr
      have A := (alignNames_spec h ho ax hoff).2 ins hal
      have hil := insertPos_le (h.axisOk ax) hi
      obtain ⟨c, hc1, hc2, hc3, hc4⟩ := insertedAxis_spec (h.axisOk ax) (A.wf.axisOk ax)
        (by rw [A.names]; exact hdis) hil
      simp only [hc1, pure, Except.pure, Except.ok.injEq] at hr
      have hra : r.axis ax = c := by subst hr; cases ax <;> rfl
      have hro : r.axis ax.off = o.axis ax.off := by subst hr; cases ax <;> rfl
      have hrd : r.data = insertData ax (o.axis ax).len o.data ins.data i := by
        subst hr; cases ax <;> rfl
      have hoff' : (o.axis ax.off).len = (ins.axis ax.off).len := by rw [A.offLen, hoff]
      refine ⟨ins, A, rfl, hoff, hdis, ?_, ?_, hro, ?_⟩
      · exact inserted_wf h A.wf ax hoff' hil hrd (by rw [hra, hc3]) (by rw [hra]; exact hc2) hro
      · rw [hra, hc3, A.len]
      · exact inserted_lines h A.wf ax hoff' hil hrd (by rw [hra, hc3]) (by rw [hra, hc4])

/-- C12. Insertion at a valid position is accepted exactly when the objects have the same length
along the other axis, no inserted name is already used, and the names of the other axis are
compatible. -/
theorem C12_insert_accepts_iff {o other : Obj V} (h : o.WF) (ho : other.WF) (ax : Ax)
    {before : Option Ident} {i : Nat} (hi : insertPos (o.axis ax) before = .ok i) :
    (∃ r, o.insert ax before other = .ok r) ↔
      (o.axis ax.off).len = (other.axis ax.off).len ∧
      NamesDisjoint (o.axis ax).getNames (other.axis ax).getNames ∧
      OffCompatible (o.axis ax.off).getNames (other.axis ax.off).getNames := by
  constructor
  · rintro ⟨r, hr⟩
    obtain ⟨ins, A, hal, h1, h2, _⟩ := insert_ok h ho hi hr
    exact ⟨h1, h2, (alignNames_spec h ho ax h1).1.1 ⟨ins, hal⟩⟩
  · rintro ⟨h1, h2, h3⟩
    obtain ⟨ins, hal⟩ := (alignNames_spec h ho ax h1).1.2 h3
    have A := (alignNames_spec h ho ax h1).2 ins hal
    obtain ⟨c, hc1, _⟩ := insertedAxis_spec (h.axisOk ax) (A.wf.axisOk ax)
        (by rw [A.names]; exact h2) (insertPos_le (h.axisOk ax) hi)
    have hv : validateInsertable o other ax = .ok () := by
      unfold validateInsertable
      rw [if_neg (by simpa using h1), (validateDisjoint_iff (h.axisOk ax) (ho.axisOk ax)).2 h2]
      simp only [bind, Except.bind]
      split
      · next hb =>
        simp only [Bool.and_eq_true] at hb
        exact validateReordered_of_compatible (h.axisOk _) (ho.axisOk _) hb.1 hb.2 h3
      · rfl
    refine ⟨({ o with data := insertData ax (o.axis ax).len o.data ins.data i } : Obj V).setAxis ax c, ?_⟩
    unfold Obj.insert
    simp only [hi, hv, hal, hc1, bind, Except.bind, pure, Except.pure]

/-- C11. An accepted `insert`/`append` puts the argument's points (features), in order and with
their names, immediately before position `i` and moves nothing else; the other axis is untouched,
and deleting the inserted range restores the object. -/
theorem C11_insert_lines {o other r : Obj V} (h : o.WF) (ho : other.WF) {ax : Ax}
    {before : Option Ident} {i : Nat} (hi : insertPos (o.axis ax) before = .ok i)
    (hr : o.insert ax before other = .ok r) :
    ∃ ins, Aligned o other ins ax ∧
      r.lines ax = (o.lines ax).take i ++ ins.lines ax ++ (o.lines ax).drop i ∧
      (r.axis ax.off).len = (o.axis ax.off).len ∧
      (r.axis ax.off).getNames = (o.axis ax.off).getNames ∧ r.WF := by
  obtain ⟨ins, A, _, _, _, w, _, ro, hl⟩ := insert_ok h ho hi hr
  exact ⟨ins, A, hl, by rw [ro], by rw [ro], w⟩

/-- C11. Deleting the inserted range restores the original object. -/
theorem C11_insert_delete {samp : List Nat → Nat → List Nat} {o other r : Obj V} (h : o.WF)
    (ho : other.WF) {ax : Ax} {before : Option Ident} {i : Nat}
    (hi : insertPos (o.axis ax) before = .ok i) (hr : o.insert ax before other = .ok r)
    (hne : 0 < (other.axis ax).len) :
    ∃ r', r.delete samp ax { start := some (.int i), stop := some (.int ((i : Int) + (other.axis ax).len - 1)) }
      = (r', .ok ()) ∧ r'.Same o := by
  obtain ⟨ins, A, _, _, _, w, rl, ro, hl⟩ := insert_ok h ho hi hr
  have hil := insertPos_le (h.axisOk ax) hi
  have ht : r.targets samp ax { start := some (.int i), stop := some (.int ((i : Int) + (other.axis ax).len - 1)) }
      = .ok (List.range' i (other.axis ax).len) := by
    rw [C08_range_selector w ax _ _ (Or.inl (by simp))]
    refine ⟨i, i + (other.axis ax).len - 1, by omega, by omega, ?_, ?_, ?_, ?_⟩
    · show (r.axis ax).getIndex _ = _
      rw [C04_getIndex_int]; omega
    · show (r.axis ax).getIndex _ = _
      rw [C04_getIndex_int]; omega
    · intro k; rw [List.mem_range'_1]; omega
    · exact List.pairwise_lt_range'
  have hnd : (List.range' i (other.axis ax).len).Nodup := List.nodup_range'
  have hb : ∀ k ∈ List.range' i (other.axis ax).len, k < (r.axis ax).len := by
    intro k hk; rw [List.mem_range'_1] at hk; omega
  obtain ⟨q, hq, hqs⟩ := selected_spec w ax hnd hb
  have hrem := remaining_spec w ax hnd hb
  refine ⟨r.remaining ax (List.range' i (other.axis ax).len) (List.range' i (other.axis ax).len).length, ?_, ?_⟩
  · unfold delete
    simp only [ht, hq, bind, Except.bind, pure, Except.pure]
    rw [hqs.len]
  · refine same_of_lines hrem.wf h ax ?_ (by rw [hrem.offLen, ro]) (by rw [hrem.offNames, ro])
    rw [hrem.lines w restIdx_bound, hl]
    have e1 : ((o.lines ax).take i).length = i := by rw [List.length_take, length_lines]; omega
    have e2 : (ins.lines ax).length = (other.axis ax).len := by rw [length_lines, A.len]
    have e3 : ((o.lines ax).drop i).length = (o.axis ax).len - i := by rw [List.length_drop, length_lines]
    have := pick_restIdx_block ((o.lines ax).take i) (ins.lines ax) ((o.lines ax).drop i)
    rw [e1, e2, e3, show i + (other.axis ax).len + ((o.axis ax).len - i) = (r.axis ax).len by omega,
      List.take_append_drop] at this
    exact this

/-- C12. Columns are matched by name: if both objects give names along the other axis, then for
every inserted point the value under a name is the value the argument has under that name, whatever
the order of the names. -/
theorem C12_insert_matches_by_name {o other r : Obj V} (h : o.WF) (ho : other.WF) {ax : Ax}
    {before : Option Ident} {i : Nat} (hi : insertPos (o.axis ax) before = .ok i)
    (hr : o.insert ax before other = .ok r)
    {k p q : Nat} {s : String} (hk : k < (other.axis ax).len)
    (hp : (o.axis ax.off).getNames[p]? = some (some s))
    (hq : (other.axis ax.off).getNames[q]? = some (some s)) :
    ((r.lines ax)[i + k]?).map (fun l => l.2[p]?) = ((other.lines ax)[k]?).map (fun l => l.2[q]?) := by
  obtain ⟨ins, A, _, hoff, _, w, rl, ro, hl⟩ := insert_ok h ho hi hr
  have hil := insertPos_le (h.axisOk ax) hi
  have e1 : ((o.lines ax).take i).length = i := by rw [List.length_take, length_lines]; omega
  have hkl : (r.lines ax)[i + k]? = (ins.lines ax)[k]? := by
    rw [hl, List.getElem?_append_left (by rw [List.length_append, length_lines, A.len]; omega),
      List.getElem?_append_right (by omega), e1]
    congr 1; omega
  have hpl : p < (o.axis ax.off).len := by
    rw [← (h.axisOk ax.off).length_getNames]; exact (List.getElem?_eq_some_iff.1 hp).1
  have hql : q < (other.axis ax.off).len := by
    rw [← (ho.axisOk ax.off).length_getNames]; exact (List.getElem?_eq_some_iff.1 hq).1
  rw [hkl, getElem?_lines ins ax (by rw [A.len]; exact hk), getElem?_lines other ax hk]
  simp only [Option.map_some, Option.some.injEq]
  rcases A.how with ⟨rfl, hc | hc | hc⟩ | ⟨hn, order, hre⟩
  · have : p = q := by
      rw [hc] at hp
      exact reduceOption_nodup_iff.1 (ho.axisOk ax.off).reduceOption_nodup p q s hp hq
    rw [this]
  · have := hc _ (List.mem_of_getElem? hp); cases this
  · have := hc _ (List.mem_of_getElem? hq); cases this
  · -- off-axis line p of ins is off-axis line q of other
    have h1 := hre.lines p
    have hpi : p < (ins.axis ax.off).len := by rw [A.offLen, ← hoff]; exact hpl
    have hol : order.length = (other.axis ax.off).len := by simpa using hre.order.length_eq
    have hpo : p < order.length := by rw [hol, ← hoff]; exact hpl
    have hob : order[p] < (other.axis ax.off).len := perm_bound hre.order _ (List.getElem_mem hpo)
    rw [List.getElem?_eq_getElem hpo, Option.bind_some, getElem?_lines ins ax.off hpi,
      getElem?_lines other ax.off hob] at h1
    simp only [Option.some.injEq, Prod.mk.injEq] at h1
    have hoq : order[p] = q := by
      have h2 := h1.1
      rw [hn, hp, Option.join_some] at h2
      have h3 : (other.axis ax.off).getNames[order[p]]? = some (some s) := by
        have hb : order[p] < (other.axis ax.off).getNames.length := by
          rw [(ho.axisOk ax.off).length_getNames]; exact hob
        rw [List.getElem?_eq_getElem hb] at h2 ⊢
        simp only [Option.join_some] at h2
        rw [← h2]
      exact reduceOption_nodup_iff.1 (ho.axisOk ax.off).reduceOption_nodup _ q s h3 hq
    have hv := h1.2
    rw [hoq] at hv
    -- cross both ways
    have c1 : (ins.vector ax k)[p]? = (ins.vector ax.off p)[k]? := by
      cases ax with
      | point =>
        have := A.wf.vector_elem (i := k) (j := p) (by have := A.len; simp only [Obj.axis] at this hk; omega) hpi
        rw [this.1]; exact this.2.symm
      | feature =>
        have := A.wf.vector_elem (i := p) (j := k) hpi (by have := A.len; simp only [Obj.axis] at this hk; omega)
        rw [this.2]; exact this.1.symm
    have c2 : (other.vector ax k)[q]? = (other.vector ax.off q)[k]? := by
      cases ax with
      | point =>
        have := ho.vector_elem (i := k) (j := q) hk hql
        rw [this.1]; exact this.2.symm
      | feature =>
        have := ho.vector_elem (i := q) (j := k) hql hk
        rw [this.2]; exact this.1.symm
    rw [c1, c2, hv]

/-- C47. For objects of the same length along the other axis whose names there agree wherever both
are given, the insertion is accepted exactly when one of them has no names there or both name the same
positions.  Missing: the objects that name different positions (refused, see below). -/
theorem C47_agreeing_names_accepted_partial {o other : Obj V} (h : o.WF) (ho : other.WF) (ax : Ax)
    {before : Option Ident} {i : Nat} (hi : insertPos (o.axis ax) before = .ok i)
    (hoff : (o.axis ax.off).len = (other.axis ax.off).len)
    (hdis : NamesDisjoint (o.axis ax).getNames (other.axis ax).getNames)
    (hag : NamesAgree (o.axis ax.off).getNames (other.axis ax.off).getNames) :
    (∃ r, o.insert ax before other = .ok r) ↔
      (∀ x ∈ (o.axis ax.off).getNames, x = none) ∨ (∀ x ∈ (other.axis ax.off).getNames, x = none) ∨
      (∀ (k : Nat), (o.axis ax.off).getNames[k]? = some none ↔
        (other.axis ax.off).getNames[k]? = some none) := by
  rw [C12_insert_accepts_iff h ho ax hi]
  have l1 := (h.axisOk ax.off).length_getNames
  have l2 := (ho.axisOk ax.off).length_getNames
  generalize (o.axis ax.off).getNames = l at hag l1 ⊢
  generalize (other.axis ax.off).getNames = r at hag l2 ⊢
  have hlen : l.length = r.length := by rw [l1, l2, hoff]
  have heq : (∀ (k : Nat), l[k]? = some none ↔ r[k]? = some none) → l = r := by
    intro hk
    apply List.ext_getElem?
    intro k
    by_cases hb : k < l.length
    · have hb2 : k < r.length := by omega
      have := hk k
      rw [List.getElem?_eq_getElem hb, List.getElem?_eq_getElem hb2] at this ⊢
      cases hx : l[k] with
      | none => rw [hx] at this; exact (this.1 rfl).symm
      | some s =>
        cases hy : r[k] with
        | none => rw [hx, hy] at this; exact absurd (this.2 rfl) (by simp)
        | some t =>
          have := hag.1 k s t (by rw [List.getElem?_eq_getElem hb, hx])
            (by rw [List.getElem?_eq_getElem hb2, hy])
          rw [this]
    · rw [List.getElem?_eq_none (by omega), List.getElem?_eq_none (by omega)]
  constructor
  · rintro ⟨_, _, hc⟩
    rcases hc with rfl | hc | hc | ⟨hc1, hc2⟩
    · exact Or.inr (Or.inr fun k => Iff.rfl)
    · exact Or.inl hc
    · exact Or.inr (Or.inl hc)
    · refine Or.inr (Or.inr fun k => ⟨fun hk => absurd (List.mem_of_getElem? hk) hc1, fun hk => ?_⟩)
      exact absurd (hc2.mem_iff.2 (List.mem_of_getElem? hk)) hc1
  · intro hc
    refine ⟨hoff, hdis, ?_⟩
    rcases hc with hc | hc | hc
    · exact Or.inr (Or.inl hc)
    · exact Or.inr (Or.inr (Or.inl hc))
    · exact Or.inl (heq hc)

/-- C47 (violated). Off-axis names that agree wherever both are given do not suffice: appending an
object with fewer names (or more) along the other axis is refused although nothing conflicts. -/
theorem C47_append_partial_names_violated :
    ∃ (o other : Obj Int), o.WF ∧ other.WF ∧ o.fts.len = other.fts.len ∧
      NamesDisjoint o.pts.getNames other.pts.getNames ∧
      NamesAgree o.fts.getNames other.fts.getNames ∧
      (∃ e, o.insert .point none other = .error e) := by
  have w1 : (⟨[[1, 2]], ⟨1, none⟩, ⟨2, some ⟨[("a", 0), ("b", 1)], [some "a", some "b"]⟩⟩⟩ : Obj Int).WF := by
    refine ⟨rfl, by decide, none_ok _, ?_⟩
    intro t ht; simp only [Option.some.injEq] at ht; subst ht
    exact namedPairs_ok (l := [some "a", some "b"]) (by decide)
  have w2 : (⟨[[3, 4]], ⟨1, none⟩, ⟨2, some ⟨[("a", 0)], [some "a", none]⟩⟩⟩ : Obj Int).WF := by
    refine ⟨rfl, by decide, none_ok _, ?_⟩
    intro t ht; simp only [Option.some.injEq] at ht; subst ht
    exact namedPairs_ok (l := [some "a", none]) (by decide)
  refine ⟨_, _, w1, w2, rfl, ?_, ?_, .KeyError, by decide⟩
  · intro s hs; simp [AxisSt.getNames] at hs
  · rw [← C15_check_iff (by decide) (by decide)]; decide

/-! ### The hypotheses are met -/

/-- One more point for `exObj`, feature names in the other order are possible when complete. -/
def exIns : Obj Int := ⟨[[7, 8]], ⟨1, some ⟨[("z", 0)], [some "z"]⟩⟩, ⟨2, none⟩⟩

theorem exIns_wf : exIns.WF where
  rows := rfl
  cols := by decide
  pts := by
    intro t ht; simp only [exIns, Option.some.injEq] at ht; subst ht
    exact namedPairs_ok (l := [some "z"]) (by decide)
  fts := none_ok 2

example : (exObj.insert .point (some (.str "b")) exIns).map (fun r => r.lines .point) =
    .ok [(some "a", [1, 2]), (some "z", [7, 8]), (some "b", [3, 4]), (some "c", [5, 6])] := by decide
example : insertPos (exObj.axis .point) (some (.str "b")) = .ok 1 := by decide
-- matching by name
example : ((⟨[[1, 2]], ⟨1, none⟩, ⟨2, some ⟨[("a", 0), ("b", 1)], [some "a", some "b"]⟩⟩⟩ : Obj Int).insert
      .point none ⟨[[3, 4]], ⟨1, none⟩, ⟨2, some ⟨[("b", 0), ("a", 1)], [some "b", some "a"]⟩⟩⟩).map
    (fun r => r.data) = .ok [[1, 2], [4, 3]] := by decide

end Nimble
