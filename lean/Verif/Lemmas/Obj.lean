import Verif.Lemmas.NamesPartial

/-! Helper lemmas about objects and structural selection. -/

namespace Nimble

theorem reduceOption_pick_nodup {l : List (Option String)} (h : l.reduceOption.Nodup)
    {tgt : List Nat} (ht : tgt.Nodup) : (pick l tgt).reduceOption.Nodup := by
  induction tgt with
  | nil => simp [pick]
  | cons i tgt ih =>
    simp only [List.nodup_cons] at ht
    have ih := ih ht.2
    cases hi : l[i]? with
    | none => simpa [pick, hi] using ih
    | some x =>
      cases x with
      | none => simpa [pick, hi, List.reduceOption_cons_of_none] using ih
      | some s =>
        have : pick l (i :: tgt) = some s :: pick l tgt := by simp [pick, hi]
        rw [this, List.reduceOption_cons_of_some, List.nodup_cons]
        refine ⟨fun hm => ht.1 ?_, ih⟩
        rw [List.reduceOption_mem_iff, mem_pick] at hm
        obtain ⟨j, hj, he⟩ := hm
        have := nodup_of_reduceOption h hi he
        rw [this]; exact hj

theorem NameTable.Ok.reduceOption_nodup {t : NameTable} {n : Nat} (h : t.Ok n) :
    t.inv.reduceOption.Nodup := by
  rw [← map_fst_namedPairs 0]
  have := h.perm.map Prod.fst
  exact (List.Perm.nodup_iff this).2 h.nodup

/-- Initialising an axis from a valid list of names. -/
theorem init_some_ok {n : Nat} {l : List (Option String)} (hl : l.length = n)
    (hn : l.reduceOption.Nodup) :
    AxisSt.init n (some l) = .ok ⟨n, some ⟨namedPairs 0 l, l⟩⟩ := by
  simp only [AxisSt.init]
  rw [if_neg (by simpa using hl), setNames_list_eq, if_pos ⟨hl, hn⟩]

theorem mk_ok {n : Nat} {l : List (Option String)} (hl : l.length = n)
    (hn : l.reduceOption.Nodup) : AxisSt.Ok ⟨n, some ⟨namedPairs 0 l, l⟩⟩ := by
  intro t ht
  simp only [Option.some.injEq] at ht; subst ht
  have := namedPairs_ok hn
  rw [hl] at this; exact this

theorem none_ok (n : Nat) : AxisSt.Ok ⟨n, none⟩ := by intro t ht; simp at ht

/-- The names of the axis picked at `tgt`, as passed to the constructor. -/
theorem init_pick {a : AxisSt} (h : a.Ok) {tgt : List Nat} (ht : tgt.Nodup)
    (hb : ∀ i ∈ tgt, i < a.len) :
    ∃ a', AxisSt.init tgt.length (a.getNamesNoGen.map (fun l => pick l tgt)) = .ok a' ∧
      a'.Ok ∧ a'.len = tgt.length ∧ a'.getNames = pick a.getNames tgt ∧
      (a'.tbl.isSome = a.tbl.isSome) := by
  cases hT : a.tbl with
  | none =>
    refine ⟨⟨tgt.length, none⟩, by simp [AxisSt.init, AxisSt.getNamesNoGen, hT], none_ok _, rfl, ?_,
      rfl⟩
    simp only [AxisSt.getNames, hT]
    symm
    rw [List.eq_replicate_iff]
    refine ⟨length_pick (by simpa using hb), ?_⟩
    intro x hx
    obtain ⟨j, _, he⟩ := mem_pick.1 hx
    rw [List.getElem?_replicate] at he
    split at he <;> simp at he; exact he.symm
  | some t =>
    have hk := h t hT
    have hlen : (pick t.inv tgt).length = tgt.length :=
      length_pick (by rw [hk.length_inv]; exact hb)
    have hnd := reduceOption_pick_nodup hk.reduceOption_nodup ht
    refine ⟨_, by simpa [AxisSt.getNamesNoGen, hT] using init_some_ok hlen hnd, mk_ok hlen hnd, rfl,
      ?_, rfl⟩
    rw [AxisSt.getNames_of_some hT]; rfl

theorem init_same {a : AxisSt} (h : a.Ok) :
    ∃ a', AxisSt.init a.len a.getNamesNoGen = .ok a' ∧ a'.Ok ∧ a'.len = a.len ∧
      a'.getNames = a.getNames ∧ a'.tbl.isSome = a.tbl.isSome := by
  cases hT : a.tbl with
  | none =>
    refine ⟨⟨a.len, none⟩, by simp [AxisSt.init, AxisSt.getNamesNoGen, hT], none_ok _, rfl, ?_, rfl⟩
    simp [AxisSt.getNames, hT]
  | some t =>
    have hk := h t hT
    refine ⟨_, by simpa [AxisSt.getNamesNoGen, hT] using
      init_some_ok hk.length_inv hk.reduceOption_nodup, mk_ok hk.length_inv hk.reduceOption_nodup,
      rfl, ?_, rfl⟩
    rw [AxisSt.getNames_of_some hT]; rfl

theorem pushName_ok {t : NameTable} {v : Option String} {vs : List (Option String)}
    (ht : t.Ok t.inv.length) (hn : (t.inv ++ v :: vs).reduceOption.Nodup) :
    (Obj.pushName t v).Ok (t.inv.length + 1) := by
  cases v with
  | none =>
    refine ⟨by simp [Obj.pushName], ht.nodup, ?_⟩
    intro s i
    show (t.inv ++ [none])[i]? = _ ↔ PyDict.get? t.names s = some i
    rw [← ht.iff]
    by_cases hil : i < t.inv.length
    · simp [List.getElem?_append_left hil]
    · rw [List.getElem?_append_right (by omega), List.getElem?_eq_none (l := t.inv) (by omega)]
      constructor
      · intro h
        by_cases h0 : i - t.inv.length = 0
        · rw [h0] at h; simp at h
        · rw [List.getElem?_eq_none (by simp; omega)] at h; simp at h
      · intro h; simp at h
  | some s0 =>
    have hnew : ∀ i : Nat, t.inv[i]? ≠ some (some s0) := by
      intro i hi
      have h1 : s0 ∈ t.inv.reduceOption := by
        rw [List.reduceOption_mem_iff]; exact List.mem_of_getElem? hi
      have h2 : s0 ∈ (some s0 :: vs).reduceOption := by
        rw [List.reduceOption_mem_iff]; simp
      rw [List.reduceOption_append, List.nodup_append] at hn
      exact hn.2.2 s0 h1 s0 h2 rfl
    refine ⟨by simp [Obj.pushName], PyDict.nodup_set ht.nodup _ _, ?_⟩
    intro s i
    show (t.inv ++ [some s0])[i]? = _ ↔ PyDict.get? (PyDict.set t.names s0 t.inv.length) s = some i
    simp only [PyDict.get?_set]
    by_cases hil : i < t.inv.length
    · rw [List.getElem?_append_left hil]
      by_cases hs : s0 = s
      · subst hs
        simp only [if_true]
        constructor
        · intro h; exact absurd h (hnew i)
        · intro h; simp at h; omega
      · simp only [hs, if_false]; exact ht.iff s i
    · rw [List.getElem?_append_right (by omega)]
      by_cases hs : s0 = s
      · subst hs
        simp only [if_true]
        constructor
        · intro h
          by_cases h0 : i - t.inv.length = 0
          · congr 1; omega
          · rw [List.getElem?_eq_none (by simp; omega)] at h; simp at h
        · intro h; simp at h; simp [← h]
      · simp only [hs, if_false]
        rw [← ht.iff, List.getElem?_eq_none (l := t.inv) (by omega)]
        constructor
        · intro h
          by_cases h0 : i - t.inv.length = 0
          · rw [h0] at h; simp at h; exact absurd h hs
          · rw [List.getElem?_eq_none (by simp; omega)] at h; simp at h
        · intro h; simp at h

/-- The reindexing loop keeps the invariant and drops exactly the targets. -/
theorem reindexLoop_ok (tgt : List Nat) (idx : Nat) (vs : List (Option String)) (t : NameTable)
    (ht : t.Ok t.inv.length)
    (hn : (t.inv ++ vs).reduceOption.Nodup) :
    (Obj.reindexLoop tgt idx vs t).Ok (Obj.reindexLoop tgt idx vs t).inv.length ∧
    (Obj.reindexLoop tgt idx vs t).inv =
      t.inv ++ pick vs ((List.range vs.length).filter (fun i => i + idx ∉ tgt)) := by
  induction vs generalizing idx t with
  | nil => simp [Obj.reindexLoop, ht, pick]
  | cons v vs ih =>
    have hpick : pick (v :: vs) ((List.range (v :: vs).length).filter (fun i => i + idx ∉ tgt)) =
        (if idx ∈ tgt then [] else [v]) ++
          pick vs ((List.range vs.length).filter (fun i => i + (idx + 1) ∉ tgt)) := by
      rw [List.length_cons, List.range_succ_eq_map, List.filter_cons]
      have h2 : pick (v :: vs) (((List.range vs.length).map Nat.succ).filter
          (fun i => i + idx ∉ tgt)) =
          pick vs ((List.range vs.length).filter (fun i => i + (idx + 1) ∉ tgt)) := by
        unfold pick
        rw [List.filter_map, List.filterMap_map]
        simp [Function.comp_def, Nat.add_assoc, Nat.add_comm 1]
      by_cases hi : idx ∈ tgt
      · rw [if_pos hi, if_neg (by simpa using hi), h2]; simp
      · rw [if_neg hi, if_pos (by simpa using hi)]
        rw [pick_cons _ (by simp), h2]; simp
    simp only [Obj.reindexLoop]
    split
    · next hi =>
      have hn' : (t.inv ++ vs).reduceOption.Nodup := by
        refine hn.sublist ?_
        unfold List.reduceOption
        exact List.Sublist.filterMap _ (List.Sublist.append_left (List.sublist_cons_self _ _) _)
      obtain ⟨h1, h2⟩ := ih (idx + 1) t ht hn'
      refine ⟨h1, ?_⟩
      rw [h2, hpick, if_pos hi]; simp
    · next hi =>
      obtain ⟨h1, h2⟩ := ih (idx + 1) (Obj.pushName t v)
        (by have := pushName_ok ht hn; simpa [Obj.pushName] using this)
        (by simpa [Obj.pushName] using hn)
      refine ⟨h1, ?_⟩
      rw [h2, hpick, if_neg hi]; simp [Obj.pushName]

theorem removeNames_ok {a : AxisSt} (h : a.Ok) {tgt : List Nat} (ht : tgt.Nodup)
    (hb : ∀ i ∈ tgt, i < a.len) :
    (Obj.removeNames a tgt tgt.length).Ok ∧
    (Obj.removeNames a tgt tgt.length).len =
      ((List.range a.len).filter (fun i => i ∉ tgt)).length ∧
    (Obj.removeNames a tgt tgt.length).getNames =
      pick a.getNames ((List.range a.len).filter (fun i => i ∉ tgt)) := by
  have hlen : a.len - tgt.length = ((List.range a.len).filter (fun i => i ∉ tgt)).length := by
    have := length_rest ht hb; omega
  cases hT : a.tbl with
  | none =>
    simp only [Obj.removeNames, hT, Option.map_none]
    refine ⟨none_ok _, hlen, ?_⟩
    simp only [AxisSt.getNames, hT]
    symm
    rw [List.eq_replicate_iff]
    refine ⟨by rw [length_pick, hlen]; intro i hi; simp at hi ⊢; exact hi.1, ?_⟩
    intro x hx
    obtain ⟨j, _, he⟩ := mem_pick.1 hx
    rw [List.getElem?_replicate] at he
    split at he <;> simp at he; exact he.symm
  | some t =>
    have hk := h t hT
    have h0 : NameTable.Ok ⟨[], []⟩ 0 := ⟨rfl, by simp, by simp⟩
    obtain ⟨h1, h2⟩ := reindexLoop_ok tgt 0 t.inv ⟨[], []⟩ h0 (by simpa using hk.reduceOption_nodup)
    simp only [Nat.add_zero, List.nil_append, hk.length_inv] at h2
    simp only [Obj.removeNames, hT, Option.map_some]
    refine ⟨?_, hlen, ?_⟩
    · intro t' ht'
      simp only [Option.some.injEq] at ht'; subst ht'
      show NameTable.Ok _ (a.len - tgt.length)
      have : (Obj.reindexLoop tgt 0 t.inv ⟨[], []⟩).inv.length = a.len - tgt.length := by
        rw [h2, hlen, length_pick]
        intro i hi; simp at hi; rw [hk.length_inv]; exact hi.1
      rw [← this]; exact h1
    · rw [AxisSt.getNames_of_some hT]
      simp only [AxisSt.getNames]; exact h2

end Nimble
