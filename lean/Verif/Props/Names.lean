import Verif.Lemmas.NamesPartial
import Mathlib.Data.List.Perm.Subperm
import Mathlib.Data.Rat.Defs

/-!
# Properties of axis names: C02, C03, C04
-/

namespace Nimble

/-! ## C02 – setNames on a whole axis is exact -/

/-- C02. `setNames(list)` succeeds exactly when there is one entry per element and no name occurs
twice (two positions never carry the same string). -/
theorem C02_setNames_list_accepts_iff (a : AxisSt) (l : List (Option String)) :
    (∃ a', a.setNames (.list l) = .ok a') ↔
      l.length = a.len ∧
        ∀ (i j : Nat) (s : String), l[i]? = some (some s) → l[j]? = some (some s) → i = j := by
  rw [setNames_list_eq]
  have key : l.reduceOption.Nodup ↔
      ∀ (i j : Nat) (s : String), l[i]? = some (some s) → l[j]? = some (some s) → i = j := by
    constructor
    · intro h i j s hi hj; exact nodup_of_reduceOption h hi hj
    · intro h
      rw [← map_fst_namedPairs 0]
      refine List.Nodup.map_on ?_ (namedPairs_nodup 0 l)
      rintro ⟨s, i⟩ h1 ⟨s', j⟩ h2 he
      simp only at he; subst he
      have e1 := (mem_namedPairs.1 h1).2
      have e2 := (mem_namedPairs.1 h2).2
      have := h _ _ _ (by simpa using e1) (by simpa using e2)
      rw [this]
  rw [← key]
  split
  · next h => exact ⟨fun _ => h, fun _ => ⟨_, rfl⟩⟩
  · next h => exact ⟨by rintro ⟨a', h'⟩; simp at h', fun h' => absurd h' h⟩

/-- C02. After a successful `setNames(list)`, `getNames()` is that very list, the axis has the same
length, and lookup by name agrees with the list whatever state the names were in before. -/
theorem C02_setNames_list_exact {a a' : AxisSt} {l : List (Option String)}
    (h : a.setNames (.list l) = .ok a') :
    a'.getNames = l ∧ a'.len = a.len ∧ NamesConsistent a' := by
  obtain ⟨_, _, h3, h4⟩ := setNames_list_ok h
  refine ⟨?_, ?_, h4.consistent⟩
  · rw [h3]; rfl
  · rw [h3]

/-- C02. `setNames(None)` makes every name a default name. -/
theorem C02_setNames_none (a : AxisSt) :
    ∃ a', a.setNames .none = .ok a' ∧ a'.getNames = List.replicate a.len none ∧ a'.len = a.len :=
  ⟨_, rfl, rfl, rfl⟩

/-- C02. A refused list is refused with `InvalidArgumentValue` (and, as the code assigns the two
attributes only after every check, axis.py:260-261, no new state exists in that case). -/
theorem C02_setNames_list_refusal {a : AxisSt} {l : List (Option String)} {e : Err}
    (h : a.setNames (.list l) = .error e) : e = .InvalidArgumentValue := by
  rw [setNames_list_eq] at h
  split at h
  · simp at h
  · injection h with h; exact h.symm

example : ∃ a', AxisSt.setNames ⟨3, none⟩ (.list [some "a", none, some "b"]) = .ok a' ∧
    a'.getIndex (.str "b") = .ok 2 := ⟨_, rfl, by decide⟩
example : AxisSt.setNames ⟨2, none⟩ (.list [some "a", some "a"]) = .error .InvalidArgumentValue := by
  decide

/-- C02, the dict form, as far as the code gets it right (`_partial`): a dict name → index that is
accepted and whose indices are distinct gives exactly the names at these indices, and a consistent
axis.  Missing: distinctness of the indices is not checked by the code, see
`C02_setNames_dict_violated`. -/
theorem C02_setNames_dict_exact_partial {a a' : AxisSt} {d : PyDict (Option String) Int}
    (hd : (PyDict.keys d).Nodup)
    (hdist : ∀ s s' v, (some s, v) ∈ d → (some s', v) ∈ d → s = s')
    (h : a.setNames (.dict d) = .ok a') :
    a'.len = a.len ∧ NamesConsistent a' ∧
      ∀ (s : String) (i : Nat), a'.getNames[i]? = some (some s) ↔ (some s, (i : Int)) ∈ d := by
  have hmem : ∀ (s : String) (v : Int), (s, v) ∈ dropNoneKey d ↔ (some s, v) ∈ d := by
    intro s v
    simp only [dropNoneKey, List.mem_filterMap]
    constructor
    · rintro ⟨⟨n, w⟩, hm, he⟩
      cases n with
      | none => simp at he
      | some s' => simp at he; obtain ⟨rfl, rfl⟩ := he; exact hm
    · intro hm; exact ⟨_, hm, by simp⟩
  have hkeys : (PyDict.keys (dropNoneKey d)).Nodup := by
    clear h hdist hmem
    induction d with
    | nil => simp [dropNoneKey, PyDict.keys]
    | cons p d ih =>
      obtain ⟨n, v⟩ := p
      rw [PyDict.keys_cons, List.nodup_cons] at hd
      cases n with
      | none => exact ih hd.2
      | some s =>
        show (PyDict.keys ((s, v) :: dropNoneKey d)).Nodup
        rw [PyDict.keys_cons, List.nodup_cons]
        refine ⟨fun hm => hd.1 ?_, ih hd.2⟩
        obtain ⟨q, hq, he⟩ := List.mem_map.1 hm
        simp only [dropNoneKey, List.mem_filterMap] at hq
        obtain ⟨⟨n', w⟩, hm', he'⟩ := hq
        cases n' with
        | none => simp at he'
        | some s' =>
          simp at he'; subst he'
          exact List.mem_map.2 ⟨_, hm', by simpa using he⟩
  simp only [AxisSt.setNames] at h
  split at h
  · simp at h
  · next hlen =>
    split at h
    · next h0 =>
      injection h with h; subst h
      have : d = [] := List.length_eq_zero_iff.1 (by omega)
      subst this
      refine ⟨rfl, AxisSt.Ok.consistent ?_, ?_⟩
      · intro t ht; simp at ht; subst ht
        exact ⟨h0.symm ▸ rfl, by simp, by simp⟩
      · intro s i; simp [AxisSt.getNames]
    · -- the filling loop
      have hfill : ∀ (e : PyDict String Int) (r r' : List (Option String)),
          (PyDict.keys e).Nodup → (∀ s s' v, (s, v) ∈ e → (s', v) ∈ e → s = s') →
          r.length = a.len → fillReverse a.len e r = .ok r' →
          r'.length = a.len ∧ (∀ p ∈ e, 0 ≤ p.2 ∧ p.2 < a.len) ∧
          ∀ i : Nat, (∀ s, (s, (i : Int)) ∈ e → r'[i]? = some (some s)) ∧
            ((∀ s, (s, (i : Int)) ∉ e) → r'[i]? = r[i]?) := by
        intro e
        induction e with
        | nil =>
          intro r r' _ _ hr hf
          simp [fillReverse] at hf; subst hf
          exact ⟨hr, by simp, fun i => ⟨by simp, fun _ => rfl⟩⟩
        | cons p e ih =>
          intro r r' hn hdd hr hf
          obtain ⟨s0, v⟩ := p
          simp only [fillReverse] at hf
          split at hf
          · simp at hf
          · next hv =>
            rw [PyDict.keys_cons, List.nodup_cons] at hn
            obtain ⟨h1, h2, h3⟩ := ih (r.set v.toNat (some s0)) r' hn.2
              (fun s s' w ha hb => hdd s s' w (by simp [ha]) (by simp [hb])) (by simpa using hr) hf
            refine ⟨h1, ?_, ?_⟩
            · intro p hp
              rcases List.mem_cons.1 hp with rfl | hp
              · simp only; omega
              · exact h2 p hp
            · intro i
              constructor
              · intro s hs
                rcases List.mem_cons.1 hs with he | hs'
                · simp only [Prod.mk.injEq] at he
                  obtain ⟨rfl, rfl⟩ := he
                  have hno : ∀ s', (s', (i : Int)) ∉ e := by
                    intro s' hs'
                    have := hdd s s' i (by simp) (by simp [hs'])
                    subst this
                    exact hn.1 (List.mem_map.2 ⟨_, hs', rfl⟩)
                  rw [(h3 i).2 hno]
                  have hil : i < r.length := by omega
                  simp [hil]
                · exact (h3 i).1 s hs'
              · intro hno
                rw [(h3 i).2 (fun s hs => hno s (by simp [hs]))]
                have : v.toNat ≠ i := by
                  intro e1
                  apply hno s0
                  have : v = (i : Int) := by omega
                  simp [this]
                simp [this]
      cases hf : fillReverse a.len (dropNoneKey d) (List.replicate a.len none) with
      | error e => simp [hf, bind, Except.bind] at h
      | ok inv =>
        simp only [hf, bind, Except.bind, pure, Except.pure, Except.ok.injEq] at h
        obtain ⟨h1, h2, h3⟩ := hfill _ _ _ hkeys
          (fun s s' v ha hb => hdist s s' v ((hmem _ _).1 ha) ((hmem _ _).1 hb)) (by simp) hf
        have hinv : ∀ (s : String) (i : Nat), inv[i]? = some (some s) ↔ (some s, (i : Int)) ∈ d := by
          intro s i
          rw [← hmem]
          constructor
          · intro hi
            by_cases hex : ∃ s', (s', (i : Int)) ∈ dropNoneKey d
            · obtain ⟨s', hs'⟩ := hex
              rw [(h3 i).1 s' hs'] at hi
              simp at hi; subst hi; exact hs'
            · rw [(h3 i).2 (fun s' hs' => hex ⟨s', hs'⟩), List.getElem?_replicate] at hi
              split at hi <;> simp at hi
          · exact (h3 i).1 s
        have hk2 : (PyDict.keys ((dropNoneKey d).map (fun p => (p.1, p.2.toNat)))).Nodup := by
          unfold PyDict.keys at hkeys ⊢
          rw [List.map_map]; exact hkeys
        subst h
        refine ⟨rfl, AxisSt.Ok.consistent ?_, ?_⟩
        · intro t ht
          simp only [Option.some.injEq] at ht; subst ht
          refine ⟨h1, hk2, ?_⟩
          intro s i
          rw [hinv, ← hmem]
          constructor
          · intro hm
            exact PyDict.get?_of_mem hk2 (List.mem_map.2 ⟨_, hm, by simp⟩)
          · intro hg
            obtain ⟨⟨s', v⟩, hm, he⟩ := List.mem_map.1 (PyDict.mem_of_get? hg)
            simp only [Prod.mk.injEq] at he
            obtain ⟨rfl, rfl⟩ := he
            have := h2 _ hm
            simp only at this
            rw [Int.toNat_of_nonneg this.1]; exact hm
        · exact hinv

/-- The unchanged code violates C02 for dicts: `setNames({'a': 0, 'b': 0})` on an axis of length 2
is accepted, after which `getIndex('a')` is 0 but the name at 0 is 'b'. -/
theorem C02_setNames_dict_violated :
    ∃ (a a' : AxisSt) (d : PyDict (Option String) Int), (PyDict.keys d).Nodup ∧
      a.setNames (.dict d) = .ok a' ∧ ¬ NamesConsistent a' := by
  refine ⟨⟨2, none⟩, ⟨2, some ⟨[("a", 0), ("b", 0)], [some "b", none]⟩⟩,
    [(some "a", 0), (some "b", 0)], by decide, by decide, ?_⟩
  intro h
  have := (h.getName_iff_getIndex "a" 0).2 (by decide)
  simp [AxisSt.getNames] at this

example : ∃ a', AxisSt.setNames ⟨3, none⟩ (.dict [(some "a", 2), (none, 0), (some "b", 1)]) = .ok a' ∧
    a'.getNames = [none, some "b", some "a"] :=
  ⟨_, rfl, by decide⟩

/-! ## C03 – partial renaming -/

/-- C03 (`_partial`). On a consistent axis, renaming with identifiers that resolve to pairwise
different indices and pairwise different new entries either is refused because a new name is used
by another element — then `getNames()` is unchanged — or replaces exactly the given entries and
leaves the axis consistent.  Missing: the code accepts repeated new names and repeated `None`s,
for which the conclusion is false (`C03_repeated_none_violated`, `C03_repeated_name_violated`). -/
theorem C03_setNames_partial_exact_partial {a : AxisSt} (hok : a.Ok) {new : List (Option String)}
    {old : List Ident} {idx : List Nat} (hlen : new.length = old.length) (h0 : 0 < a.len)
    (hres : old.map (fun id => a.getIndex id) = idx.map (fun (i : Nat) => (.ok (i : Int) : Res Int)))
    (hidx : idx.Nodup) (hnew : new.Nodup) :
    let out := a.setNamesPartial new old
    (out.2 = .ok () ↔ ∀ (s : String) (j k : Nat), new[j]? = some (some s) →
        a.getNames[k]? = some (some s) → idx[j]? = some k) ∧
    (out.2 = .ok () → out.1.len = a.len ∧ out.1.Ok ∧ NamesConsistent out.1 ∧
      (∀ (j k : Nat), idx[j]? = some k → out.1.getNames[k]? = new[j]?) ∧
      (∀ k, k ∉ idx → out.1.getNames[k]? = a.getNames[k]?)) ∧
    (out.2 ≠ .ok () → out.2 = .error .InvalidArgumentValue ∧ out.1.getNames = a.getNames) := by
  -- the touched state
  obtain ⟨t, ht⟩ : ∃ t, a.touch.tbl = some t := by
    unfold AxisSt.touch; cases h : a.tbl <;> simp [h]
  have hokT : a.touch.Ok := hok.touch
  have hgetT : ∀ id, a.touch.getIndex id = a.getIndex id := by
    intro id
    cases hn : a.tbl with
    | none =>
      cases id <;> simp [AxisSt.touch, hn, AxisSt.getIndex, AxisSt.getIndexByName, defaultTable]
    | some t => simp [AxisSt.touch, hn]
  have hidxlen : idx.length = old.length := by
    have := congrArg List.length hres; simpa using this.symm
  -- identifiers resolve to distinct valid indices, so there are at most `len` of them
  have hbound : ∀ i ∈ idx, i < a.len := by
    intro i hi
    have : (.ok (i : Int) : Res Int) ∈ old.map (fun id => a.getIndex id) := by
      rw [hres]; exact List.mem_map.2 ⟨i, hi, rfl⟩
    obtain ⟨id, _, he⟩ := List.mem_map.1 this
    have := getIndex_bound hok he
    omega
  have hle : new.length ≤ a.len := by
    have h1 : idx.length ≤ (List.range a.len).length :=
      (hidx.subperm (fun i hi => List.mem_range.2 (hbound i hi))).length_le
    simp at h1; omega
  -- the resolving loop succeeds
  have hrs : ∀ (old : List Ident) (idx : List Nat),
      old.map (fun id => a.touch.getIndex id) =
        idx.map (fun (i : Nat) => (.ok (i : Int) : Res Int)) →
      ∃ olds, resolveOld a.touch t old = .ok olds := by
    intro old
    induction old with
    | nil => intro _ _; exact ⟨[], rfl⟩
    | cons id old ih =>
      intro idx h
      cases idx with
      | nil => simp at h
      | cons i idx =>
        simp only [List.map_cons, List.cons.injEq] at h
        obtain ⟨olds, ho⟩ := ih idx h.2
        simp only [resolveOld, h.1, ho, bind, Except.bind, pure, Except.pure]
        exact ⟨_, rfl⟩
  obtain ⟨olds, holds⟩ := hrs old idx (by simpa [hgetT] using hres)
  obtain ⟨hl, hspec, hmap⟩ := resolveOld_spec hokT ht holds
  have hsnd : olds.map Prod.snd = idx := by
    have h1 : olds.map (fun p => (.ok (p.2 : Int) : Res Int)) =
        idx.map (fun (i : Nat) => (.ok (i : Int) : Res Int)) := by
      rw [hmap]; simpa [hgetT] using hres
    have h2 : (olds.map Prod.snd).map (fun (i : Nat) => (.ok (i : Int) : Res Int)) =
        idx.map (fun (i : Nat) => (.ok (i : Int) : Res Int)) := by
      rw [List.map_map]; exact h1
    exact List.map_injective_iff.2 (fun x y h => by simp at h; omega) h2
  have hT : t.Ok a.len := by have := hokT t ht; rwa [touch_len] at this
  have hgn : a.getNames = t.inv := by
    rw [← touch_getNames]; exact AxisSt.getNames_of_some ht
  have hzn : PyDict.ofPairs (new.zip idx) = new.zip idx :=
    PyDict.ofPairs_nodup (by rw [List.map_fst_zip (by omega)]; exact hnew)
  -- the check loop in observable terms
  have hchk : checkNew t (PyDict.ofPairs (new.zip (olds.map Prod.snd))) = .ok () ↔
      ∀ (s : String) (j k : Nat), new[j]? = some (some s) →
        a.getNames[k]? = some (some s) → idx[j]? = some k := by
    rw [hsnd, hzn, checkNew_ok_iff, hgn]
    constructor
    · intro h s j k hj hk
      have hjl : j < new.length := by
        by_contra hc; rw [List.getElem?_eq_none (by omega)] at hj; simp at hj
      have hji : j < idx.length := by omega
      have hm : (some s, idx[j]) ∈ new.zip idx := by
        rw [List.mem_iff_getElem?]
        refine ⟨j, ?_⟩
        rw [List.getElem?_zip_eq_some]
        exact ⟨hj, List.getElem?_eq_getElem hji⟩
      have hg := (hT.iff _ _).1 hk
      have := h s _ hm (PyDict.mem_keys.2 (by rw [hg]; rfl))
      have h2 : t.inv[idx[j]]? = some (some s) := by
        cases hx : t.inv[idx[j]]? with
        | none => rw [hx] at this; simp at this
        | some y => rw [hx] at this; simp at this; rw [this]
      have hg2 := (hT.iff _ _).1 h2
      rw [hg] at hg2
      rw [List.getElem?_eq_getElem hji]; exact hg2.symm
    · intro h s i hm hk
      rw [List.mem_iff_getElem?] at hm
      obtain ⟨j, hj⟩ := hm
      rw [List.getElem?_zip_eq_some] at hj
      obtain ⟨k, hk'⟩ := Option.isSome_iff_exists.1 (PyDict.mem_keys.1 hk)
      have := h s j k hj.1 ((hT.iff _ _).2 hk')
      rw [hj.2] at this
      have : i = k := Option.some.inj this
      subst this
      rw [(hT.iff _ _).2 hk']; rfl
  have hout : a.setNamesPartial new old =
      match checkNew t (PyDict.ofPairs (new.zip (olds.map Prod.snd))) with
      | .error e => (a.touch, .error e)
      | .ok () => ({ a.touch with tbl := some (applyNew t (PyDict.ofPairs olds)
          (PyDict.ofPairs (new.zip (olds.map Prod.snd)))) }, .ok ()) := by
    simp only [AxisSt.setNamesPartial]
    rw [if_neg (by omega), if_pos ⟨hle, hlen⟩]
    simp only [ht, holds]
    rcases checkNew_cases t (PyDict.ofPairs (new.zip (olds.map Prod.snd))) with hc | hc <;>
      simp [hc]
  rcases checkNew_cases t (PyDict.ofPairs (new.zip (olds.map Prod.snd))) with hc | hc
  · have hcore := applyNew_ok hT (by omega) (by rw [touch_len] at hspec; exact hspec)
      (by rw [hsnd]; exact hidx) hnew hc
    rw [hc] at hout
    simp only at hout
    simp only [hout]
    refine ⟨⟨fun _ => hchk.1 hc, fun _ => trivial⟩, fun _ => ?_, fun h => absurd rfl h⟩
    have hok' : AxisSt.Ok { a.touch with tbl := some (applyNew t (PyDict.ofPairs olds)
          (PyDict.ofPairs (new.zip (olds.map Prod.snd)))) } := by
      intro t' ht'
      simp only [Option.some.injEq] at ht'; subst ht'
      rw [show ({ a.touch with tbl := some (applyNew t (PyDict.ofPairs olds)
          (PyDict.ofPairs (new.zip (olds.map Prod.snd)))) } : AxisSt).len = a.len from touch_len a]
      exact hcore.1
    refine ⟨touch_len a, hok', hok'.consistent, ?_, ?_⟩
    · intro j k hj
      have hji : j < idx.length := by
        by_contra hcc; rw [List.getElem?_eq_none (by omega)] at hj; simp at hj
      have hjn : j < new.length := by omega
      have hm : (new[j], k) ∈ new.zip (olds.map Prod.snd) := by
        rw [hsnd, List.mem_iff_getElem?]
        exact ⟨j, List.getElem?_zip_eq_some.2 ⟨List.getElem?_eq_getElem hjn, hj⟩⟩
      have := (hcore.2 k).1 _ hm
      rw [List.getElem?_eq_getElem hjn]
      exact this
    · intro k hk
      rw [hgn]
      exact (hcore.2 k).2 (by rw [hsnd]; exact hk)
  · rw [hc] at hout
    simp only at hout
    simp only [hout]
    refine ⟨⟨fun h => by simp at h, fun h => ?_⟩, fun h => by simp at h,
      fun _ => ⟨trivial, touch_getNames a⟩⟩
    rw [hchk.2 h] at hc; simp at hc

example : (AxisSt.setNamesPartial
    ⟨3, some ⟨[("a", 0), ("b", 1), ("c", 2)], [some "a", some "b", some "c"]⟩⟩
    [some "z", none] [.str "c", .int (-3)]).1.getNames = [none, some "b", some "z"] := by decide

/-- The unchanged code violates the full C03: `setNames([None, None], ['a','b'])` is accepted, but
the name list still shows 'a', which can no longer be looked up. -/
theorem C03_repeated_none_violated :
    let a : AxisSt := ⟨2, some ⟨[("a", 0), ("b", 1)], [some "a", some "b"]⟩⟩
    let out := a.setNamesPartial [none, none] [.str "a", .str "b"]
    a.Ok ∧ out.2 = .ok () ∧ out.1.getNames = [some "a", none] ∧
      out.1.getIndex (.str "a") = .error .KeyError ∧ ¬ NamesConsistent out.1 := by
  refine ⟨?_, by decide, by decide, by decide, ?_⟩
  · intro t ht
    simp only [Option.some.injEq] at ht; subst ht
    have := namedPairs_ok (l := [some "a", some "b"]) (by decide)
    exact this
  · intro h
    have := (h.getName_iff_getIndex "a" 0).1 (by decide)
    revert this; decide

/-- Likewise a repeated new name: `setNames(['z','z'], ['a','b'])` is accepted, 'a' stays in the
list at position 0 but is no longer found. -/
theorem C03_repeated_name_violated :
    let a : AxisSt := ⟨2, some ⟨[("a", 0), ("b", 1)], [some "a", some "b"]⟩⟩
    let out := a.setNamesPartial [some "z", some "z"] [.str "a", .str "b"]
    out.2 = .ok () ∧ out.1.getNames = [some "a", some "z"] ∧
      out.1.getIndex (.str "a") = .error .KeyError := by
  decide

/-! ## C04 – identifier resolution -/

/-- C04. An integer is accepted exactly for `-n ≤ i < n`, and then denotes `i` or `i + n`. -/
theorem C04_getIndex_int (a : AxisSt) (i r : Int) :
    a.getIndex (.int i) = .ok r ↔
      -(a.len : Int) ≤ i ∧ i < a.len ∧ r = if i < 0 then i + a.len else i := by
  simp only [AxisSt.getIndex]
  by_cases h0 : a.len = 0
  · simp [h0]; omega
  · rw [if_neg h0]
    by_cases hi : i < 0
    · simp only [hi, if_true]
      split
      · simp; omega
      · simp; omega
    · simp only [hi, if_false, false_or]
      split
      · simp only [reduceCtorEq, false_iff]; omega
      · simp only [Except.ok.injEq]; omega

/-- C04. A string is accepted exactly when it is the name of some element, and then denotes that
element's position. -/
theorem C04_getIndex_str {a : AxisSt} (h : a.Ok) (s : String) (r : Int) :
    a.getIndex (.str s) = .ok r ↔ ∃ i : Nat, r = i ∧ a.getNames[i]? = some (some s) := by
  constructor
  · intro hr
    have hb := getIndex_bound h hr
    refine ⟨r.toNat, by omega, ?_⟩
    rw [h.getName_iff, hr]; congr 1; omega
  · rintro ⟨i, rfl, hi⟩
    exact (h.getName_iff s i).1 hi

/-- C04. Whatever integer or name is accepted, the result is a valid index of the axis. -/
theorem C04_getIndex_valid {a : AxisSt} (h : a.Ok) {id : Ident} {i : Int}
    (hi : a.getIndex id = .ok i) : 0 ≤ i ∧ i < a.len := getIndex_bound h hi

/-- C04. An empty axis accepts no identifier of any kind. -/
theorem C04_getIndex_empty (t : Option NameTable) (id : Ident) (fl : Bool) :
    AxisSt.getIndex ⟨0, t⟩ id fl = .error .IndexError := by
  simp [AxisSt.getIndex]

/-- C04, floats (`_partial`): accepted exactly when integral, and denotes that integer. Missing:
the promised validity of the result — the code checks no range (`C04_float_violated`). -/
theorem C04_getIndex_float_partial {a : AxisSt} (h0 : 0 < a.len) (q : Rat) (r : Int) :
    a.getIndex (.flt q) true = .ok r ↔ q = (r : Rat) := by
  simp only [AxisSt.getIndex]
  rw [if_neg (by omega)]
  simp only [if_true]
  split
  · next hd =>
    constructor
    · intro h; simp at h
    · intro h; exfalso; apply hd; rw [h]; rfl
  · next hd =>
    have hd : q.den = 1 := by simpa using hd
    constructor
    · intro h; injection h with h
      subst h
      exact ((Rat.den_eq_one_iff q).1 hd).symm
    · intro h; rw [h]; rfl

/-- The unchanged code accepts a float that denotes no element. -/
theorem C04_float_violated : ∃ (a : AxisSt) (q : Rat) (r : Int), 0 < a.len ∧
    a.getIndex (.flt q) true = .ok r ∧ ¬ (r < a.len) :=
  ⟨⟨2, none⟩, 7, 7, by decide, by decide, by decide⟩

/-- C04. `hasName` answers truthfully on a non-empty axis. -/
theorem C04_hasName {a : AxisSt} (h : a.Ok) (h0 : 0 < a.len) (s : String) :
    a.hasName s = .ok (decide (some s ∈ a.getNames)) := by
  unfold AxisSt.hasName
  cases hg : a.getIndex (.str s) with
  | ok i =>
    have hb := getIndex_bound h hg
    have : a.getNames[i.toNat]? = some (some s) := by
      rw [h.getName_iff, hg]; congr 1; omega
    have : some s ∈ a.getNames := List.mem_of_getElem? this
    simp [this]
  | error e =>
    have hno : some s ∉ a.getNames := by
      intro hm
      obtain ⟨i, hi⟩ := List.mem_iff_getElem?.1 hm
      rw [h.getName_iff, hg] at hi; simp at hi
    have he : e = .KeyError := by
      simp only [AxisSt.getIndex, AxisSt.getIndexByName] at hg
      rw [if_neg (by omega)] at hg
      cases ht : a.tbl with
      | none => simp [ht, Except.map] at hg; exact hg.symm
      | some t =>
        cases hx : PyDict.get? t.names s with
        | none => simp [ht, hx, Except.map] at hg; exact hg.symm
        | some j => simp [ht, hx, Except.map] at hg
    subst he
    simp [hno]

/-- On an empty axis the unchanged `hasName` raises instead of answering `False`. -/
theorem C04_hasName_empty_violated (t : Option NameTable) (s : String) :
    AxisSt.hasName ⟨0, t⟩ s = .error .IndexError := by
  simp [AxisSt.hasName, AxisSt.getIndex]

example : AxisSt.Ok ⟨3, some ⟨[("a", 0), ("c", 2)], [some "a", none, some "c"]⟩⟩ := by
  intro t ht
  simp only [Option.some.injEq] at ht; subst ht
  exact namedPairs_ok (l := [some "a", none, some "c"]) (by decide)

end Nimble
