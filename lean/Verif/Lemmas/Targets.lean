import Verif.Lemmas.Structural

/-! Helper lemmas: what selectors resolve to. -/

namespace Nimble
open Obj
variable {V : Type}

theorem resolveIdents_ok_iff (a : AxisSt) (ids : List Ident) (l : List Nat) (hok : a.Ok) :
    resolveIdents a ids = .ok l ↔
      ids.map (fun id => a.getIndex id) = l.map (fun (i : Nat) => (.ok (i : Int) : Res Int)) := by
  induction ids generalizing l with
  | nil =>
    cases l <;> simp [resolveIdents]
  | cons id ids ih =>
    simp only [resolveIdents, bind, Except.bind, pure, Except.pure]
    cases hi : a.getIndex id with
    | error e =>
      cases l <;> simp [hi]
    | ok i =>
      have hb := getIndex_bound hok hi
      cases hr : resolveIdents a ids with
      | error e =>
        cases l with
        | nil => simp
        | cons k l =>
          simp only [List.map_cons, List.cons.injEq, reduceCtorEq, false_iff, hi]
          rintro ⟨_, h2⟩
          rw [← ih] at h2; rw [hr] at h2; simp at h2
      | ok l' =>
        cases l with
        | nil => simp
        | cons k l =>
          simp only [List.map_cons, List.cons.injEq, hi, Except.ok.injEq]
          constructor
          · rintro ⟨h1, h2⟩
            exact ⟨by omega, (ih l).1 (by rw [hr, h2])⟩
          · rintro ⟨h1, h2⟩
            have := (ih l).2 h2
            rw [hr] at this
            exact ⟨by omega, by injection this⟩

theorem resolveIdents_bound {a : AxisSt} (hok : a.Ok) {ids : List Ident} {l : List Nat}
    (h : resolveIdents a ids = .ok l) : ∀ i ∈ l, i < a.len := by
  rw [resolveIdents_ok_iff a ids l hok] at h
  intro i hi
  have : (.ok (i : Int) : Res Int) ∈ ids.map (fun id => a.getIndex id) := by
    rw [h]; exact List.mem_map.2 ⟨i, hi, rfl⟩
  obtain ⟨id, _, he⟩ := List.mem_map.1 this
  have := getIndex_bound hok he
  omega

theorem resolveDistinct_ok_iff (a : AxisSt) (ids : List Ident) (l : List Nat) :
    resolveDistinct a ids = .ok l ↔ resolveIdents a ids = .ok l ∧ l.Nodup := by
  simp only [resolveDistinct, bind, Except.bind]
  cases h : resolveIdents a ids with
  | error e => simp
  | ok l' =>
    by_cases hn : l'.Nodup
    · simp [hn, pure, Except.pure]; intro h; subst h; exact hn
    · simp [hn]; intro h; subst h; exact hn

theorem matching_nodup (o : Obj V) (ax : Ax) (lim : Option (List Nat)) (f : AxView V → Bool) :
    (o.matching ax lim f).Nodup ∧ ∀ i ∈ o.matching ax lim f, i < (o.axis ax).len := by
  constructor
  · exact List.nodup_range.filter _
  · intro i hi; simp [matching] at hi; exact hi.1

theorem startIndex_bound {a : AxisSt} (hok : a.Ok) {id : Option Ident} {i : Int}
    (h : startIndex a id = .ok i) : 0 ≤ i ∧ (i < a.len ∨ i = 0) := by
  cases id with
  | none => simp [startIndex] at h; omega
  | some id => have := getIndex_bound hok h; omega

theorem stopIndex_bound {a : AxisSt} (hok : a.Ok) {id : Option Ident} {i : Int}
    (h : stopIndex a id = .ok i) : -1 ≤ i ∧ i < a.len := by
  cases id with
  | none => simp [stopIndex] at h; omega
  | some id => have := getIndex_bound hok h; omega

theorem rangeTargets_ok_iff {a : AxisSt} (start stop : Option Ident) (l : List Nat) :
    rangeTargets a start stop = .ok l ↔ ∃ st en : Int, startIndex a start = .ok st ∧
      stopIndex a stop = .ok en ∧ (0 ≤ st ∧ st ≤ a.len ∧ 0 ≤ en ∧ en ≤ a.len ∧ st ≤ en) ∧
      l = List.range' st.toNat (en + 1 - st).toNat := by
  simp only [rangeTargets, bind, Except.bind]
  cases hs : startIndex a start with
  | error e => simp
  | ok st =>
    cases he : stopIndex a stop with
    | error e => simp
    | ok en =>
      simp only [validateStartEnd]
      split
      · next hc =>
        split at hc
        · simp; omega
        · split at hc
          · simp; omega
          · split at hc
            · simp; omega
            · simp at hc
      · next hc =>
        split at hc
        · simp at hc
        · split at hc
          · simp at hc
          · split at hc
            · simp at hc
            · simp only [pure, Except.pure, Except.ok.injEq]
              constructor
              · intro h; exact ⟨st, en, rfl, rfl, by omega, h.symm⟩
              · rintro ⟨_, _, rfl, rfl, _, h⟩; exact h.symm

/-- The base targets are always distinct valid indices. -/
theorem baseTargets_valid {o : Obj V} (h : o.WF) {ax : Ax} {sel : Selector V} {l : List Nat}
    (hl : o.baseTargets ax sel = .ok l) : l.Nodup ∧ ∀ i ∈ l, i < (o.axis ax).len := by
  have hok := h.axisOk ax
  have hres : ∀ ids, resolveDistinct (o.axis ax) ids = .ok l →
      l.Nodup ∧ ∀ i ∈ l, i < (o.axis ax).len := by
    intro ids hr
    rw [resolveDistinct_ok_iff] at hr
    exact ⟨hr.2, resolveIdents_bound hok hr.1⟩
  unfold baseTargets at hl
  simp only at hl
  split at hl
  · exact hres _ hl
  · next s q _ =>
    simp only [bind, Except.bind] at hl
    cases hn : (o.axis ax).hasName s with
    | error e => simp [hn] at hl
    | ok b =>
      simp only [hn] at hl
      split at hl
      · exact hres _ hl
      · cases q with
        | error e => simp at hl
        | ok f =>
          simp only [pure, Except.pure, Except.ok.injEq] at hl
          subst hl; exact matching_nodup _ _ _ _
  · exact hres _ hl
  · split at hl
    · injection hl with hl; subst hl; exact matching_nodup _ _ _ _
    · next ids _ =>
      simp only [bind, Except.bind] at hl
      cases hr : resolveDistinct (o.axis ax.off) ids with
      | error e => simp [hr] at hl
      | ok lim =>
        simp only [hr, pure, Except.pure, Except.ok.injEq] at hl
        subst hl; exact matching_nodup _ _ _ _
  · split at hl
    · rw [rangeTargets_ok_iff] at hl
      obtain ⟨st, en, hs, he, hle, rfl⟩ := hl
      refine ⟨List.nodup_range', ?_⟩
      have h1 := startIndex_bound hok hs
      have h2 := stopIndex_bound hok he
      intro i hi
      rw [List.mem_range'_1] at hi
      omega
    · injection hl with hl; subst hl
      exact ⟨List.nodup_range, by simp⟩

theorem targets_valid {samp : List Nat → Nat → List Nat} (hs : SampleSpec samp) {o : Obj V}
    (h : o.WF) {ax : Ax} {sel : Selector V} {l : List Nat}
    (hl : o.targets samp ax sel = .ok l) : l.Nodup ∧ ∀ i ∈ l, i < (o.axis ax).len := by
  unfold targets at hl
  simp only [bind, Except.bind] at hl
  split at hl
  · simp at hl
  · split at hl
    · simp at hl
    · next l0 hb =>
      obtain ⟨h1, h2⟩ := baseTargets_valid h hb
      split at hl
      · simp only [pure, Except.pure, Except.ok.injEq] at hl; subst hl; exact ⟨h1, h2⟩
      · split at hl
        · simp at hl
        · next n _ hn =>
          split at hl
          · simp only [pure, Except.pure, Except.ok.injEq] at hl; subst hl
            have := (hs l0 n.toNat (by omega)).1
            exact ⟨(this.exists_of_length_lt |> fun _ => by
              obtain ⟨l', hp, hsub⟩ := this
              exact hp.nodup_iff.1 (h1.sublist hsub)), fun i hi => h2 i (this.subset hi)⟩
          · simp only [pure, Except.pure, Except.ok.injEq] at hl; subst hl
            exact ⟨h1.sublist (List.take_sublist _ _), fun i hi => h2 i (List.mem_of_mem_take hi)⟩

end Nimble
