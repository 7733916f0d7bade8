import Verif.Lemmas.Targets

/-!
# Structural operations: C06, C07, C08
-/

namespace Nimble
open Obj
variable {V : Type}

/-- A well-formed object is determined by what is seen along one axis (names and values of each
point/feature) together with the number of rows and columns: the elements are those values. -/
theorem lines_determine_elements {o : Obj V} (h : o.WF) {i j : Nat} (hi : i < o.pts.len)
    (hj : j < o.fts.len) :
    (∃ l, (o.lines .point)[i]? = some l ∧ l.1 = (o.pts.getNames[i]?).join ∧
      l.2[j]? = o.elem? i j) ∧
    (∃ l, (o.lines .feature)[j]? = some l ∧ l.1 = (o.fts.getNames[j]?).join ∧
      l.2[i]? = o.elem? i j) := by
  have := h.vector_elem hi hj
  exact ⟨⟨_, getElem?_lines o .point hi, rfl, this.1⟩, ⟨_, getElem?_lines o .feature hj, rfl, this.2⟩⟩

/-! ## C06 – extract is a partition -/

/-- C06. A successful `extract` (any selector, either axis) returns exactly the selected
points/features in selection order and leaves exactly the others in their original order; both keep
names and values, no element is lost or duplicated, lengths add up, and the other axis keeps its
length and names in both objects.  Both objects satisfy the invariants. -/
theorem C06_extract_partition {samp : List Nat → Nat → List Nat} (hs : SampleSpec samp) {o o' ret : Obj V} (h : o.WF)
    {ax : Ax} {sel : Selector V} (hx : o.extract samp ax sel = (o', .ok ret)) :
    ∃ tgt, o.targets samp ax sel = .ok tgt ∧ tgt.Nodup ∧ (∀ i ∈ tgt, i < (o.axis ax).len) ∧
      ret.lines ax = pick (o.lines ax) tgt ∧
      o'.lines ax = dropIdx (o.lines ax) tgt ∧
      (ret.lines ax ++ o'.lines ax).Perm (o.lines ax) ∧
      (o'.lines ax).Sublist (o.lines ax) ∧
      (ret.axis ax).len + (o'.axis ax).len = (o.axis ax).len ∧
      (ret.axis ax.off).len = (o.axis ax.off).len ∧ (o'.axis ax.off).len = (o.axis ax.off).len ∧
      (ret.axis ax.off).getNames = (o.axis ax.off).getNames ∧
      (o'.axis ax.off).getNames = (o.axis ax.off).getNames ∧
      ret.WF ∧ o'.WF := by
  unfold extract at hx
  cases ht : o.targets samp ax sel with
  | error e => simp [ht, bind, Except.bind] at hx
  | ok tgt =>
    obtain ⟨h1, h2⟩ := targets_valid hs h ht
    obtain ⟨r, hr, hspec⟩ := selected_spec h ax h1 h2
    simp only [ht, hr, bind, Except.bind, pure, Except.pure, Prod.mk.injEq, Except.ok.injEq] at hx
    obtain ⟨rfl, rfl⟩ := hx
    rw [hspec.len]
    have hrem := remaining_spec h ax h1 h2
    have hl1 := hspec.lines h h2
    have hl2 := hrem.lines h restIdx_bound
    have hd : dropIdx (o.lines ax) tgt = pick (o.lines ax) (restIdx (o.axis ax).len tgt) := by
      unfold dropIdx restIdx; rw [length_lines]
    refine ⟨tgt, rfl, h1, h2, hl1, by rw [hl2, hd], ?_, ?_, ?_, hspec.offLen, hrem.offLen,
      hspec.offNames, hrem.offNames, hspec.wf, hrem.wf⟩
    · rw [hl1, hl2, ← pick_append]
      apply pick_perm
      rw [length_lines]
      exact perm_targets_rest h1 h2
    · rw [hl2]
      have := pick_sublist_of_sorted (o.lines ax) (fun i => decide (i ∉ tgt))
      rw [length_lines] at this
      exact this
    · rw [hrem.len]
      have e1 := (perm_targets_rest h1 h2).length_eq
      simp only [List.length_append, List.length_range] at e1
      exact e1

/-- C06. `extract` succeeds exactly when the selector resolves; a refused `extract` leaves the
object untouched. -/
theorem C06_extract_refusal {samp : List Nat → Nat → List Nat} (hs : SampleSpec samp) {o : Obj V} (h : o.WF) (ax : Ax)
    (sel : Selector V) (e : Err) :
    o.extract samp ax sel = (o, .error e) ↔ o.targets samp ax sel = .error e := by
  unfold extract
  cases ht : o.targets samp ax sel with
  | error e' => simp [bind, Except.bind]
  | ok tgt =>
    obtain ⟨h1, h2⟩ := targets_valid hs h ht
    obtain ⟨r, hr, _⟩ := selected_spec h ax h1 h2
    simp [hr, bind, Except.bind, pure, Except.pure]

/-! ## C07 – copy, retain, delete and count agree with extract -/

/-- C07. `copy` returns (or refuses with) what `extract` returns and leaves the object alone. -/
theorem C07_copy_eq_extract {samp : List Nat → Nat → List Nat} (hs : SampleSpec samp) {o : Obj V} (h : o.WF) (ax : Ax)
    (sel : Selector V) :
    (o.copy samp ax sel).1 = o ∧ (o.copy samp ax sel).2 = (o.extract samp ax sel).2 := by
  refine ⟨rfl, ?_⟩
  unfold copy extract
  cases ht : o.targets samp ax sel with
  | error e => simp [bind, Except.bind]
  | ok tgt =>
    obtain ⟨h1, h2⟩ := targets_valid hs h ht
    obtain ⟨r, hr, _⟩ := selected_spec h ax h1 h2
    simp [hr, bind, Except.bind, pure, Except.pure]

/-- C07. `delete` leaves exactly what `extract` leaves and refuses exactly when it refuses. -/
theorem C07_delete_eq_extract {samp : List Nat → Nat → List Nat} (o : Obj V) (ax : Ax) (sel : Selector V) :
    (o.delete samp ax sel).1 = (o.extract samp ax sel).1 ∧
    (o.delete samp ax sel).2 = (o.extract samp ax sel).2.map (fun _ => ()) := by
  unfold delete extract
  generalize (do
    let tgt ← o.targets samp ax sel
    let ret ← o.selected ax tgt
    return (tgt, ret) : Res (List Nat × Obj V)) = m
  cases m with
  | error e => simp [Except.map]
  | ok p => simp [Except.map]

/-- C07. `retain` leaves in the object exactly what `extract` would return (and leaves the object
alone, refusing with the same error, when `extract` refuses). -/
theorem C07_retain_eq_extract {samp : List Nat → Nat → List Nat} (hs : SampleSpec samp) {o : Obj V} (h : o.WF) (ax : Ax)
    (sel : Selector V) :
    match (o.extract samp ax sel).2 with
    | .ok ret => (o.retain samp ax sel).2 = .ok () ∧ Obj.Same (o.retain samp ax sel).1 ret ∧
        (o.retain samp ax sel).1.WF
    | .error e => o.retain samp ax sel = (o, .error e) := by
  unfold extract retain
  cases ht : o.targets samp ax sel with
  | error e => simp [bind, Except.bind]
  | ok tgt =>
    obtain ⟨h1, h2⟩ := targets_valid hs h ht
    obtain ⟨r, hr, hsp⟩ := selected_spec h ax h1 h2
    obtain ⟨a, ha1, ha2, ha3, ha4, _⟩ := init_same hsp.wf.pts
    obtain ⟨b, hb1, hb2, hb3, hb4, _⟩ := init_same hsp.wf.fts
    simp only [hr, bind, Except.bind, pure, Except.pure, make, ha1, hb1]
    refine ⟨trivial, ⟨ha3, hb3, rfl, ha4, hb4⟩, ⟨?_, ?_, ha2, hb2⟩⟩
    · show r.data.length = a.len
      rw [ha3]; exact hsp.wf.rows
    · intro q hq
      show q.length = b.len
      rw [hb3]; exact hsp.wf.cols q hq

/-- C07. `count` of a function, a list or a query string is the number of points/features `extract`
would return. -/
theorem C07_count_eq_extract {samp : List Nat → Nat → List Nat} (hs : SampleSpec samp) {o o' ret : Obj V} (h : o.WF)
    {ax : Ax} {cond : Target V} {lim : Option (List Ident)}
    (hx : o.extract samp ax { target := some cond, limitTo := lim } = (o', .ok ret))
    (hcond : match cond with
      | .one _ => False
      | .str s _ => (o.axis ax).hasName s = .ok false
      | _ => True) :
    o.count samp ax cond lim = .ok (ret.axis ax).len := by
  unfold extract at hx
  cases ht : o.targets samp ax { target := some cond, limitTo := lim } with
  | error e => simp [ht, bind, Except.bind] at hx
  | ok tgt =>
    obtain ⟨h1, h2⟩ := targets_valid hs h ht
    obtain ⟨r, hr, hspec⟩ := selected_spec h ax h1 h2
    simp only [ht, hr, bind, Except.bind, pure, Except.pure, Prod.mk.injEq, Except.ok.injEq] at hx
    obtain ⟨_, rfl⟩ := hx
    rw [hspec.len]
    unfold count
    simp only [ht, bind, Except.bind]
    cases cond with
    | one i => exact hcond.elim
    | str s q => simp only at hcond; simp [hcond, pure, Except.pure]
    | list ids => rfl
    | pred f => rfl

/-- C07. `count` refuses a single index and the name of a point/feature (where `extract` would
take that one element). -/
theorem C07_count_refuses_identifier {samp : List Nat → Nat → List Nat} (o : Obj V) (ax : Ax) (i : Int) (s : String)
    (q : Res (AxView V → Bool)) (hname : (o.axis ax).hasName s = .ok true) :
    (∃ e, o.count samp ax (.one i) none = .error e) ∧
    (∃ e, o.count samp ax (.str s q) none = .error e) := by
  constructor
  · unfold count
    simp only [bind, Except.bind]
    split
    · exact ⟨_, rfl⟩
    · exact ⟨_, rfl⟩
  · unfold count
    simp only [bind, Except.bind]
    split
    · exact ⟨_, rfl⟩
    · simp only [hname, if_true]; exact ⟨_, rfl⟩

/-! ## C08 – range, number, function and list selectors -/

/-- C08. A list selector selects the given identifiers in the given order; it is accepted exactly
when every identifier denotes an element and no two denote the same one. -/
theorem C08_list_selector {samp : List Nat → Nat → List Nat} {o : Obj V} (h : o.WF) (ax : Ax) (ids : List Ident)
    (l : List Nat) :
    o.targets samp ax { target := some (.list ids) } = .ok l ↔
      ids.map (fun id => (o.axis ax).getIndex id) =
        l.map (fun (i : Nat) => (.ok (i : Int) : Res Int)) ∧ l.Nodup := by
  have : o.targets samp ax { target := some (.list ids) } = resolveDistinct (o.axis ax) ids := by
    simp only [targets, validateStructural, baseTargets, bind, Except.bind, Option.isNone_some,
      Option.isSome_some, Option.isNone_none, Option.isSome_none]
    cases resolveDistinct (o.axis ax) ids <;> rfl
  rw [this, resolveDistinct_ok_iff, resolveIdents_ok_iff _ _ _ (h.axisOk ax)]

/-- C08. A function selects exactly the points/features whose view satisfies it, in order. -/
theorem C08_function_selector {samp : List Nat → Nat → List Nat} (o : Obj V) (ax : Ax) (f : AxView V → Bool) :
    o.targets samp ax { target := some (.pred f) } =
      .ok ((List.range (o.axis ax).len).filter (fun i => f (o.view ax none i))) := by
  simp [targets, validateStructural, numberBad, baseTargets, bind, Except.bind, pure, Except.pure, matching]

/-- `start` denotes index `st`: the identifier given, or the first element. -/
def StartIs (a : AxisSt) : Option Ident → Nat → Prop
  | none, st => st = 0
  | some id, st => a.getIndex id = .ok (st : Int)

/-- `end` denotes index `en`: the identifier given, or the last element. -/
def StopIs (a : AxisSt) : Option Ident → Nat → Prop
  | none, en => en + 1 = a.len
  | some id, en => a.getIndex id = .ok (en : Int)

/-- C08. `start`/`end` are inclusive at both ends, a missing `start` is the first and a missing
`end` the last element, and the selection is refused when `start` comes after `end`. -/
theorem C08_range_selector {samp : List Nat → Nat → List Nat} {o : Obj V} (h : o.WF) (ax : Ax) (start stop : Option Ident)
    (hne : start ≠ none ∨ stop ≠ none) (l : List Nat) :
    o.targets samp ax { start := start, stop := stop } = .ok l ↔
      ∃ st en : Nat, st ≤ en ∧ en < (o.axis ax).len ∧
        StartIs (o.axis ax) start st ∧ StopIs (o.axis ax) stop en ∧
        (∀ i, i ∈ l ↔ st ≤ i ∧ i ≤ en) ∧ l.Pairwise (· < ·) := by
  have hb : (start.isSome || stop.isSome) = true := by
    cases start <;> cases stop <;> simp at hne ⊢
  have : o.targets samp ax { start := start, stop := stop } =
      rangeTargets (o.axis ax) start stop := by
    simp only [targets, baseTargets, bind, Except.bind, hb, if_true]
    have hv : validateStructural (V := V) { start := start, stop := stop } = .ok () := by
      cases start <;> cases stop <;> simp [validateStructural, numberBad] at hne ⊢
    rw [hv]
    cases rangeTargets (o.axis ax) start stop <;> rfl
  rw [this, rangeTargets_ok_iff]
  constructor
  · rintro ⟨st, en, hs, he, ⟨h1, h2, h3, h4, h5⟩, rfl⟩
    have b1 := startIndex_bound (h.axisOk ax) hs
    have b2 := stopIndex_bound (h.axisOk ax) he
    refine ⟨st.toNat, en.toNat, by omega, by omega, ?_, ?_, ?_, ?_⟩
    · cases start with
      | none => simp [startIndex] at hs; show st.toNat = 0; omega
      | some id => simp only [startIndex, StartIs] at hs ⊢; rw [hs]; congr 1; omega
    · cases stop with
      | none => simp [stopIndex] at he; show en.toNat + 1 = _; omega
      | some id => simp only [stopIndex, StopIs] at he ⊢; rw [he]; congr 1; omega
    · intro i; rw [List.mem_range'_1]; omega
    · exact List.pairwise_lt_range'
  · rintro ⟨st, en, h1, h2, hs, he, hm, hp⟩
    refine ⟨st, en, ?_, ?_, by omega, ?_⟩
    · cases start with
      | none => simp only [StartIs] at hs; subst hs; rfl
      | some id => exact hs
    · cases stop with
      | none => simp only [StopIs] at he; simp [stopIndex]; omega
      | some id => exact he
    · have hp2 : (List.range' st (en + 1 - st)).Pairwise (· < ·) := List.pairwise_lt_range'
      have e1 : ((st : Int)).toNat = st := by omega
      have e2 : ((en : Int) + 1 - st).toNat = en + 1 - st := by omega
      rw [e1, e2]
      refine List.Perm.eq_of_pairwise (le := (· < ·)) ?_ hp hp2 ?_
      · intro a b _ _ h1 h2; omega
      · rw [List.perm_ext_iff_of_nodup (hp.imp (fun h => Nat.ne_of_lt h)) List.nodup_range']
        intro i; rw [hm, List.mem_range'_1]; omega

/-- C08. `number = k` (without `randomize`) keeps the first `k` of the selection; it is refused
exactly when `k < 1` or `k` exceeds the number selected. -/
theorem C08_number_selector {samp : List Nat → Nat → List Nat} {o : Obj V} {ax : Ax} {sel : Selector V} {l : List Nat}
    (hl : o.targets samp ax sel = .ok l) (hnone : sel.number = none) (k : Int) :
    o.targets samp ax { sel with number := some k } =
      if 1 ≤ k ∧ k ≤ l.length then .ok (l.take k.toNat) else .error .InvalidArgumentValue := by
  obtain ⟨tg, st, en, nu, ra, li⟩ := sel
  simp only at hnone; subst hnone
  have hb : ∀ n r, baseTargets o ax ⟨tg, st, en, n, r, li⟩ = baseTargets o ax ⟨tg, st, en, none, ra, li⟩ := by
    intro n r; rfl
  simp only [targets, bind, Except.bind] at hl ⊢
  cases hv : validateStructural (V := V) ⟨tg, st, en, none, ra, li⟩ with
  | error e => simp [hv] at hl
  | ok u =>
    have hra : ra = false := by
      cases ra with
      | false => rfl
      | true =>
        simp only [validateStructural, numberBad] at hv
        split at hv <;> simp at hv
    subst hra
    simp only [hv] at hl
    by_cases hk : k < 1
    · have : validateStructural (V := V) ⟨tg, st, en, some k, false, li⟩ =
          .error .InvalidArgumentValue := by
        simp [validateStructural, numberBad, hk]
      rw [this, if_neg (by omega)]
    · have : validateStructural (V := V) ⟨tg, st, en, some k, false, li⟩ = .ok () := by
        simp only [validateStructural] at hv ⊢
        simp only [Option.isNone_some, Bool.and_false, Bool.false_and] at hv ⊢
        split at hv
        · simp at hv
        · simp only [numberBad, hk, decide_false] at hv ⊢
          simpa using hv
      rw [this, hb]
      simp only
      cases hbt : baseTargets o ax ⟨tg, st, en, none, false, li⟩ with
      | error e => simp [hbt] at hl
      | ok l0 =>
        simp only [hbt, pure, Except.pure, Except.ok.injEq] at hl
        subst hl
        by_cases hgt : k > l0.length
        · simp only; rw [if_pos hgt, if_neg (by omega)]
        · simp only; rw [if_neg hgt]; rw [if_pos (c := 1 ≤ k ∧ k ≤ (l0.length : Int)) ⟨by omega, by omega⟩]; rfl

/-- C08. With `randomize` the result is some `k` of the selected elements, without repetition. -/
theorem C08_random_selector {samp : List Nat → Nat → List Nat} (hs : SampleSpec samp) {o : Obj V} {ax : Ax}
    {sel : Selector V} {l r : List Nat} (k : Int)
    (hr : o.targets samp ax { sel with number := some k, randomize := true } = .ok r)
    (hl : o.baseTargets ax sel = .ok l) :
    r.Subperm l ∧ (r.length : Int) = k := by
  obtain ⟨tg, st, en, nu, ra, li⟩ := sel
  have hb : baseTargets o ax ⟨tg, st, en, some k, true, li⟩ = .ok l := hl
  simp only [targets, bind, Except.bind, hb] at hr
  cases hv : validateStructural (V := V) ⟨tg, st, en, some k, true, li⟩ with
  | error e => simp [hv] at hr
  | ok u =>
    simp only [hv] at hr
    have hk : ¬ k < 1 := by
      intro hk
      simp [validateStructural, numberBad, hk] at hv
    split at hr
    · simp at hr
    · next hn =>
      simp only [if_true, pure, Except.pure, Except.ok.injEq] at hr
      subst hr
      have := hs l k.toNat (by omega)
      exact ⟨this.1, by rw [this.2]; omega⟩

/-- C08. Contradictory selectors are refused: nothing given, `randomize` without `number`, a
target together with a range, `limitTo` without a function. -/
theorem C08_contradictory_selectors {samp : List Nat → Nat → List Nat} (o : Obj V) (ax : Ax) (t : Target V) (sel : Selector V)
    (id : Ident) (ids : List Ident) :
    (∃ e, o.targets samp ax {} = .error e) ∧
    (sel.number = none → ∃ e, o.targets samp ax { sel with randomize := true } = .error e) ∧
    (∃ e, o.targets samp ax { sel with target := some t, start := some id } = .error e) ∧
    (∃ e, o.targets samp ax { sel with target := some t, stop := some id } = .error e) ∧
    ((∀ f, t ≠ .pred f) → ∃ e, o.targets samp ax { sel with target := some t, limitTo := some ids }
      = .error e) ∧
    (∃ e, o.targets samp ax { sel with target := none, limitTo := some ids } = .error e) := by
  have key : ∀ s : Selector V, (∃ e, validateStructural s = .error e) →
      ∃ e, o.targets samp ax s = .error e := by
    rintro s ⟨e, he⟩
    exact ⟨e, by simp [targets, he, bind, Except.bind]⟩
  refine ⟨key _ ⟨.InvalidArgumentTypeCombination, rfl⟩, fun hn => key _ ?_, key _ ?_, key _ ?_, fun hp => key _ ?_, key _ ?_⟩
  · obtain ⟨tg, st, en, nu, ra, li⟩ := sel
    simp only at hn; subst hn
    unfold validateStructural
    simp only [numberBad]
    split
    · exact ⟨_, rfl⟩
    · simp
  · unfold validateStructural
    simp only [Option.isSome_some, Bool.true_or, Bool.and_true, if_true]
    repeat (first | exact ⟨_, rfl⟩ | split)
  · unfold validateStructural
    simp only [Option.isSome_some, Bool.or_true, Bool.and_true, if_true]
    repeat (first | exact ⟨_, rfl⟩ | split)
  · unfold validateStructural
    cases t with
    | pred f => exact absurd rfl (hp f)
    | one i => simp only []; repeat (first | exact ⟨_, rfl⟩ | split)
    | str s q => simp only []; repeat (first | exact ⟨_, rfl⟩ | split)
    | list l => simp only []; repeat (first | exact ⟨_, rfl⟩ | split)
  · unfold validateStructural
    simp only []
    repeat (first | exact ⟨_, rfl⟩ | split)

/-! ### The hypotheses are met -/

/-- A 3×2 object with point names a, b, c and one feature name. -/
def exObj : Obj Int := ⟨[[1, 2], [3, 4], [5, 6]],
  ⟨3, some ⟨[("a", 0), ("b", 1), ("c", 2)], [some "a", some "b", some "c"]⟩⟩,
  ⟨2, some ⟨[("f", 0)], [some "f", none]⟩⟩⟩

theorem exObj_wf : exObj.WF where
  rows := rfl
  cols := by decide
  pts := by
    intro t ht; simp only [exObj, Option.some.injEq] at ht; subst ht
    exact namedPairs_ok (l := [some "a", some "b", some "c"]) (by decide)
  fts := by
    intro t ht; simp only [exObj, Option.some.injEq] at ht; subst ht
    exact namedPairs_ok (l := [some "f", none]) (by decide)

theorem take_sampleSpec : SampleSpec (fun l k => l.take k) := by
  intro l k hk
  exact ⟨(List.take_sublist k l).subperm, by simp [hk]⟩

example : (exObj.extract (fun l k => l.take k) .point { target := some (.list [.str "c", .int 0]) }).2.map
    (fun r => r.lines .point) = .ok [(some "c", [5, 6]), (some "a", [1, 2])] := by decide
example : (exObj.extract (fun l k => l.take k) .point { target := some (.list [.str "c", .int 0]) }).1.lines .point
    = [(some "b", [3, 4])] := by decide
example : exObj.targets (fun l k => l.take k) .point { start := some (.int 1) } = .ok [1, 2] := by decide
example : exObj.targets (fun l k => l.take k) .point
    { start := some (.int 0), number := some 2, randomize := true } = .ok [0, 1] := by decide

end Nimble
