import Verif.Lemmas.Permute
import Verif.Props.Structural

/-!
# Permuting: C09
-/

namespace Nimble
open Obj
variable {V : Type}

/-- What a rearrangement of points/features along `l` looks like from outside: position `k` of the
result carries the name and the values formerly at position `l[k]`, and the other axis keeps its
length and names. -/
structure Rearranged (o r : Obj V) (ax : Ax) (l : List Nat) : Prop where
  order : l.Perm (List.range (o.axis ax).len)
  lines : ∀ k : Nat, (r.lines ax)[k]? = (l[k]?).bind (fun i => (o.lines ax)[i]?)
  len : (r.axis ax).len = (o.axis ax).len
  offLen : (r.axis ax.off).len = (o.axis ax.off).len
  offNames : (r.axis ax.off).getNames = (o.axis ax.off).getNames
  wf : r.WF

theorem rearranged_of_selected {o r : Obj V} (h : o.WF) {ax : Ax} {l : List Nat}
    (hp : l.Perm (List.range (o.axis ax).len)) (s : SelectedSpec o r ax l) :
    Rearranged o r ax l where
  order := hp
  lines := by
    intro k
    rw [s.lines h (perm_bound hp), getElem?_pick (by rw [length_lines]; exact perm_bound hp)]
  len := by rw [s.len]; simpa using hp.length_eq
  offLen := s.offLen
  offNames := s.offNames
  wf := s.wf

/-- C09. `permute(order)` is accepted exactly when the identifiers resolve to a permutation of all
indices, and then rearranges data and names along it. -/
theorem C09_permute_iff {o : Obj V} (h : o.WF) (ax : Ax) (order : List Ident) :
    (∃ r, o.permute ax order = .ok r) ↔
      ∃ l : List Nat, order.map (fun id => (o.axis ax).getIndex id) =
          l.map (fun (i : Nat) => (.ok (i : Int) : Res Int)) ∧
        l.Perm (List.range (o.axis ax).len) := by
  constructor
  · rintro ⟨r, hr⟩
    unfold permute at hr
    cases hl : resolveIdents (o.axis ax) order with
    | error e => simp [hl, bind, Except.bind] at hr
    | ok l =>
      simp only [hl, bind, Except.bind] at hr
      split at hr
      · simp at hr
      · split at hr
        · simp at hr
        · next h1 h2 =>
          refine ⟨l, (resolveIdents_ok_iff _ _ _ (h.axisOk ax)).1 hl, ?_⟩
          exact perm_range_of_nodup (by simpa using h2) (resolveIdents_bound (h.axisOk ax) hl)
            (by simpa using h1)
  · rintro ⟨l, hl, hp⟩
    obtain ⟨r, hr, _⟩ := applyOrder_spec h ax hp
    refine ⟨r, ?_⟩
    unfold permute
    rw [(resolveIdents_ok_iff _ _ _ (h.axisOk ax)).2 hl]
    simp only [bind, Except.bind]
    rw [if_neg (by simpa using hp.length_eq), if_neg (by simpa using perm_nodup hp)]
    exact hr

/-- C09. After an accepted `permute(order)` position `k` holds the point formerly at `order[k]`,
with its name. -/
theorem C09_permute_lines {o r : Obj V} (h : o.WF) {ax : Ax} {order : List Ident}
    (hr : o.permute ax order = .ok r) :
    ∃ l : List Nat, order.map (fun id => (o.axis ax).getIndex id) =
          l.map (fun (i : Nat) => (.ok (i : Int) : Res Int)) ∧ Rearranged o r ax l := by
  obtain ⟨l, hl, hp⟩ := (C09_permute_iff h ax order).1 ⟨r, hr⟩
  obtain ⟨r', hr', hs⟩ := applyOrder_spec h ax hp
  refine ⟨l, hl, ?_⟩
  have : o.permute ax order = .ok r' := by
    unfold permute
    rw [(resolveIdents_ok_iff _ _ _ (h.axisOk ax)).2 hl]
    simp only [bind, Except.bind]
    rw [if_neg (by simpa using hp.length_eq), if_neg (by simpa using perm_nodup hp)]
    exact hr'
  rw [this] at hr
  cases hr
  exact rearranged_of_selected h hp hs

/-- C09. `permute()` without an order rearranges along whatever the shuffle produced. -/
theorem C09_permute_random {o : Obj V} (h : o.WF) (ax : Ax) {shuffled : List Nat}
    (hs : ShuffleSpec (o.axis ax).len shuffled) :
    ∃ r, o.permuteRandom ax shuffled = .ok r ∧ Rearranged o r ax shuffled := by
  obtain ⟨r, hr, hsp⟩ := applyOrder_spec h ax hs
  exact ⟨r, hr, rearranged_of_selected h hs hsp⟩

/-- C09. Permuting by the inverse order restores the object. -/
theorem C09_permute_inverse {o r : Obj V} (h : o.WF) {ax : Ax} {l inv : List Nat}
    (hr : o.permute ax (l.map (fun (k : Nat) => .int k)) = .ok r)
    (hlen : inv.length = (o.axis ax).len)
    (hinv : ∀ k, k < (o.axis ax).len → (inv[k]?).bind (fun i => l[i]?) = some k) :
    ∃ q, r.permute ax (inv.map (fun (k : Nat) => .int k)) = .ok q ∧ q.Same o := by
  obtain ⟨l', hl', hp⟩ := (C09_permute_iff h ax _).1 ⟨r, hr⟩
  have hb : ∀ i ∈ l, i < (o.axis ax).len ∨ True := fun _ _ => Or.inr trivial
  -- the accepted integers are the indices themselves
  have hll : l' = l := by
    have hlen' : l'.length = l.length := by
      have := congrArg List.length hl'; simpa using this.symm
    apply List.ext_getElem hlen'
    intro k hk1 hk2
    have := congrArg (fun x => x[k]?) hl'
    simp only [List.map_map, List.getElem?_map, List.getElem?_eq_getElem hk1,
      List.getElem?_eq_getElem hk2, Option.map_some, Function.comp, Option.some.injEq] at this
    have hk' := AxisSt.getIndex_nonneg_int this
    omega
  subst hll
  obtain ⟨r', hr', hs⟩ := permute_ints h ax hp
  rw [hr] at hr'; cases hr'
  have hbl := perm_bound hp
  have hll : l'.length = (o.axis ax).len := by simpa using hp.length_eq
  have hbi : ∀ i ∈ inv, i < l'.length := by
    intro i hi
    obtain ⟨k, hk, he⟩ := List.getElem_of_mem hi
    have := hinv k (by omega)
    rw [List.getElem?_eq_getElem hk, he, Option.bind_some] at this
    exact (List.getElem?_eq_some_iff.1 this).1
  have hpick : pick l' inv = List.range (o.axis ax).len := by
    apply List.ext_getElem?
    intro k
    rw [getElem?_pick hbi]
    by_cases hk : k < (o.axis ax).len
    · rw [hinv k hk]; simp [hk]
    · rw [List.getElem?_eq_none (by omega)]; simp [hk]
  have hnd : inv.Nodup := by
    rw [List.nodup_iff_injective_getElem]
    intro a b hab
    simp only at hab
    have ha := hinv a (by omega)
    have hb := hinv b (by omega)
    rw [List.getElem?_eq_getElem a.2] at ha
    rw [List.getElem?_eq_getElem b.2] at hb
    simp only [Option.bind_some] at ha hb
    rw [hab] at ha
    rw [ha] at hb
    exact Fin.ext (by simpa using hb)
  have hrl : (r.axis ax).len = l'.length := by rw [hs.len]
  have hip : inv.Perm (List.range (r.axis ax).len) :=
    perm_range_of_nodup hnd (by rw [hrl]; exact hbi) (by rw [hrl]; omega)
  obtain ⟨q, hq, hqs⟩ := permute_ints hs.wf ax hip
  refine ⟨q, hq, ?_⟩
  have := SelectedSpec.trans h hs hqs hbl hbi
  rw [hpick] at this
  exact this.eq_of_range h

/-! ### The hypotheses are met -/

example : (exObj.permute .point [.str "c", .int 0, .int (-2)]).map (fun r => r.lines .point)
    = .ok [(some "c", [5, 6]), (some "a", [1, 2]), (some "b", [3, 4])] := by decide
example : (exObj.permute .point [.int 0, .str "a", .int 1]).toOption = none := by decide
example : (exObj.permute .point [.int 2, .int 0]).toOption = none := by decide
-- inverse of [2, 0, 1] is [1, 2, 0]
example : ∀ k, k < 3 → (([1, 2, 0] : List Nat)[k]?).bind (fun i => ([2, 0, 1] : List Nat)[i]?) = some k := by
  decide
example : ShuffleSpec (exObj.axis .point).len [2, 0, 1] := by
  show List.Perm [2, 0, 1] (List.range 3); decide

end Nimble
