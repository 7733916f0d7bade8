import Verif.Model.Encode
import Verif.Props.Transform
import Verif.Props.Insert
import Verif.Lemmas.Group
import Mathlib.Data.List.Nodup

/-!
# C32, C33: integer and one-hot encoding of a feature
-/

namespace Nimble
variable {V : Type} [DecidableEq V]

/-! ## C32 -/

/-- `mapped` relabels `col` by the integers `0 .. k-1`: every integer below `k` stands for exactly
one value of `col`. -/
structure Relabelling (num : Nat → V) (col : List V) (mapped : List Nat) (d : PyDict Nat V) : Prop where
  /-- one integer per element -/
  length : mapped.length = col.length
  /-- the dictionary gives back the value that was replaced -/
  back : ∀ (i : Nat) (n : Nat), mapped[i]? = some n → PyDict.get? d n = col[i]?
  /-- the keys are `0 .. k-1`, `k` being the number of distinct values -/
  keys : (PyDict.keys d).Perm (List.range (firstOcc col).length)
  /-- equal values have equal integers (and conversely, by `back`) -/
  same : ∀ i i' : Nat, col[i]? = col[i']? → mapped[i]? = mapped[i']?
  /-- zero stays zero -/
  zero : ∀ i : Nat, col[i]? = some (num 0) → mapped[i]? = some 0

/-- The state after some values: the mapping holds exactly the values seen, numbered `0 .. next-1`. -/
private structure IntInv (num : Nat → V) (col : List V) (s : IntState V) : Prop where
  nodup : (PyDict.keys s.mapping).Nodup
  mem : ∀ v, v ∈ PyDict.keys s.mapping ↔ v ∈ col
  vals : (PyDict.values s.mapping).Perm (List.range s.next)
  len : s.mapped.length = col.length
  look : ∀ i : Nat, s.mapped[i]? = (col[i]?).bind (PyDict.get? s.mapping)
  zero : ∀ n, PyDict.get? s.mapping (num 0) = some n → n = 0

private theorem keys_bump (d : PyDict V Nat) : PyDict.keys (bumpAll d) = PyDict.keys d := by
  simp [bumpAll, PyDict.keys]

private theorem values_bump (d : PyDict V Nat) :
    PyDict.values (bumpAll d) = (PyDict.values d).map (· + 1) := by
  simp [bumpAll, PyDict.values]

private theorem get?_bump (d : PyDict V Nat) (v : V) :
    PyDict.get? (bumpAll d) v = (PyDict.get? d v).map (· + 1) := by
  induction d with
  | nil => rfl
  | cons p d ih =>
    obtain ⟨k, n⟩ := p
    simp only [bumpAll, List.map_cons, PyDict.get?] at ih ⊢
    split
    · rfl
    · exact ih

private theorem mem_keys_of_get? {d : PyDict V Nat} {v : V} {n : Nat}
    (h : PyDict.get? d v = some n) : v ∈ PyDict.keys d :=
  PyDict.mem_keys.2 (by simp [h])

private theorem not_mem_keys_of_get? {d : PyDict V Nat} {v : V}
    (h : PyDict.get? d v = none) : v ∉ PyDict.keys d := by
  intro hm; have := PyDict.mem_keys.1 hm; simp [h] at this

private theorem intStep_inv {num : Nat → V} {col : List V} {s : IntState V} (h : IntInv num col s)
    (v : V) : IntInv num (col ++ [v]) (intStep num s v) := by
  unfold intStep
  cases hg : PyDict.get? s.mapping v with
  | some n =>
    have hm := mem_keys_of_get? hg
    refine ⟨h.nodup, ?_, h.vals, by simp [h.len], ?_, h.zero⟩
    · intro w
      rw [h.mem w, List.mem_append, List.mem_singleton]
      constructor
      · exact Or.inl
      · rintro (h1 | rfl)
        · exact h1
        · exact (h.mem w).1 hm
    · intro i
      rcases Nat.lt_trichotomy i col.length with hi | hi | hi
      · rw [List.getElem?_append_left (by rw [h.len]; exact hi), List.getElem?_append_left hi]
        exact h.look i
      · subst hi
        rw [← h.len, List.getElem?_concat_length, h.len, List.getElem?_concat_length]
        exact hg.symm
      · rw [List.getElem?_eq_none (by simp [h.len]; omega),
          List.getElem?_eq_none (by simp; omega)]
        rfl
  | none =>
    have hm := not_mem_keys_of_get? hg
    simp only
    by_cases hz : v = num 0
    · rw [if_pos hz]
      have hm' : num 0 ∉ PyDict.keys (bumpAll s.mapping) := by rw [keys_bump, ← hz]; exact hm
      have hmc : num 0 ∉ col := by rw [← hz, ← h.mem]; exact hm
      refine ⟨?_, ?_, ?_, by simp [h.len], ?_, ?_⟩
      · apply PyDict.nodup_set; rw [keys_bump]; exact h.nodup
      · intro w
        rw [PyDict.mem_keys_set, keys_bump, h.mem w, List.mem_append, List.mem_singleton, hz]
        exact or_comm
      · rw [PyDict.set_of_not_mem hm']
        simp only [PyDict.values, List.map_append, List.map_cons, List.map_nil]
        have e := values_bump s.mapping
        simp only [PyDict.values] at e
        rw [e]
        have h2 := h.vals.map (· + 1)
        simp only [PyDict.values] at h2
        refine ((h2.append_right [0]).trans List.perm_append_comm).trans ?_
        rw [List.range_succ_eq_map]
        exact List.Perm.refl _
      · intro i
        rcases Nat.lt_trichotomy i col.length with hi | hi | hi
        · rw [List.getElem?_append_left (by simp [h.len]; exact hi), List.getElem?_append_left hi,
            List.getElem?_map, h.look i, List.getElem?_eq_getElem hi]
          simp only [Option.bind_some]
          have hne : ¬ num 0 = col[i] := fun he => hmc (by rw [he]; exact List.getElem_mem hi)
          rw [PyDict.get?_set, if_neg (by first | exact hne | exact Ne.symm hne), get?_bump]
        · subst hi
          have : (s.mapped.map (· + 1)).length = col.length := by simp [h.len]
          rw [← this, List.getElem?_concat_length, this, List.getElem?_concat_length]
          simp [hz]
        · rw [List.getElem?_eq_none (by simp [h.len]; omega),
            List.getElem?_eq_none (by simp; omega)]
          rfl
      · intro n hn
        rw [PyDict.get?_set_self] at hn
        cases hn; rfl
    · rw [if_neg hz]
      refine ⟨PyDict.nodup_set h.nodup _ _, ?_, ?_, by simp [h.len], ?_, ?_⟩
      · intro w
        rw [PyDict.mem_keys_set, h.mem w, List.mem_append, List.mem_singleton]
        exact or_comm
      · rw [PyDict.set_of_not_mem hm]
        simp only [PyDict.values, List.map_append, List.map_cons, List.map_nil]
        rw [List.range_succ]
        exact h.vals.append_right _
      · intro i
        have hvc : v ∉ col := by rw [← h.mem]; exact hm
        rcases Nat.lt_trichotomy i col.length with hi | hi | hi
        · rw [List.getElem?_append_left (by rw [h.len]; exact hi), List.getElem?_append_left hi,
            h.look i, List.getElem?_eq_getElem hi]
          simp only [Option.bind_some]
          have hne : ¬ v = col[i] := fun he => hvc (by rw [he]; exact List.getElem_mem hi)
          rw [PyDict.get?_set, if_neg (by first | exact hne | exact Ne.symm hne)]
        · subst hi
          rw [← h.len, List.getElem?_concat_length, h.len, List.getElem?_concat_length]
          simp
        · rw [List.getElem?_eq_none (by simp [h.len]; omega),
            List.getElem?_eq_none (by simp; omega)]
          rfl
      · intro n hn
        rw [PyDict.get?_set, if_neg hz] at hn
        exact h.zero n hn

private theorem foldl_inv {num : Nat → V} (rest : List V) :
    ∀ (col : List V) (s : IntState V), IntInv num col s →
      IntInv num (col ++ rest) (rest.foldl (intStep num) s) := by
  induction rest with
  | nil => intro col s h; simpa using h
  | cons v rest ih =>
    intro col s h
    have := ih _ _ (intStep_inv h v)
    simpa using this

private theorem applyMap_inv (num : Nat → V) (col : List V) :
    IntInv num col (applyMap num col) := by
  have := foldl_inv (num := num) col [] ⟨[], [], 0⟩ ⟨by simp, by simp, by simp [PyDict.values], rfl,
    by simp, by simp⟩
  simpa [applyMap] using this

/-- The relabelling computed by `applyMap`. -/
theorem applyMap_relabels (num : Nat → V) (col : List V) :
    Relabelling num col (applyMap num col).mapped (invertMap (applyMap num col).mapping) := by
  have h := applyMap_inv num col
  generalize applyMap num col = s at h
  have hvn : (PyDict.values s.mapping).Nodup := h.vals.nodup_iff.2 List.nodup_range
  have hinv : invertMap s.mapping = s.mapping.map (fun p => (p.2, p.1)) := by
    apply PyDict.ofPairs_nodup
    simpa [PyDict.values, Function.comp_def] using hvn
  have hk : PyDict.keys (invertMap s.mapping) = PyDict.values s.mapping := by
    rw [hinv]; simp [PyDict.keys, PyDict.values, Function.comp_def]
  have hperm : (PyDict.keys s.mapping).Perm (firstOcc col) :=
    (List.perm_ext_iff_of_nodup h.nodup (nodup_firstOcc col)).2
      (fun v => by rw [h.mem v, mem_firstOcc])
  have hnext : s.next = (firstOcc col).length := by
    have h1 := h.vals.length_eq
    have h2 := hperm.length_eq
    simp [PyDict.values, PyDict.keys] at h1 h2
    omega
  refine ⟨h.len, ?_, ?_, ?_, ?_⟩
  · intro i n hi
    rw [h.look i] at hi
    cases hc : col[i]? with
    | none => simp [hc] at hi
    | some v =>
      rw [hc] at hi
      have hi' : PyDict.get? s.mapping v = some n := hi
      apply PyDict.get?_of_mem
      · rw [hk]; exact hvn
      · rw [hinv]
        exact List.mem_map.2 ⟨_, PyDict.mem_of_get? hi', rfl⟩
  · rw [hk, ← hnext]; exact h.vals
  · intro i i' he
    rw [h.look i, h.look i', he]
  · intro i hi
    have hm : num 0 ∈ PyDict.keys s.mapping := (h.mem _).2 (List.mem_of_getElem? hi)
    rw [h.look i, hi]
    show PyDict.get? s.mapping (num 0) = some 0
    have := PyDict.mem_keys.1 hm
    cases hg : PyDict.get? s.mapping (num 0) with
    | none => rw [hg] at this; cases this
    | some n => rw [h.zero n hg]

private theorem getIndex_self' {a : AxisSt} {j : Nat} (hj : j < a.len) :
    a.getIndex (.int (j : Int)) = .ok (j : Int) := by
  have h1 : ¬ ((j : Int) < 0) := by omega
  simp only [AxisSt.getIndex]
  split
  · omega
  · split
    · omega
    · first | rfl | simp [h1]

namespace Obj

/-- **C32**: `transformFeatureToIntegers` on an object with points and an identifier denoting
feature `j` succeeds; feature `j` holds the integers of a relabelling of its values and the returned
dictionary inverts it; every other feature, all names and the shape are unchanged. -/
theorem C32_transformFeatureToIntegers (num : Nat → V) {o : Obj V} (h : o.WF) {id : Ident} {j : Nat}
    (hp : 0 < o.pts.len) (hj : o.fts.getIndex id = .ok (j : Int)) :
    ∃ o' d mapped, o.featureToIntegers num id = (o', .ok d) ∧ o'.WF ∧
      o'.pts = o.pts ∧ o'.fts = o.fts ∧
      o'.vector .feature j = mapped.map num ∧
      (∀ k : Nat, k < o.fts.len → k ≠ j → o'.vector .feature k = o.vector .feature k) ∧
      Relabelling num (o.vector .feature j) mapped d := by
  have hb := getIndex_bound h.fts hj
  have hjl : j < o.fts.len := by omega
  have hR := applyMap_relabels num (o.vector .feature j)
  have hlenv : (o.vector .feature j).length = o.pts.len := h.length_vector .feature hjl
  have hD : Denotes (o.axis .feature) (some [.int (j : Int)]) (fun i => decide (i ∈ [j])) := by
    refine Or.inr ⟨_, [j], rfl, ?_, fun i => rfl⟩
    rw [resolveIdents_ok_iff _ _ _ (h.axisOk .feature)]
    simp [axis, getIndex_self' hjl]
  obtain ⟨o', ho'⟩ := C52_transform_succeeds (f := fun ft => .ok ((applyMap num ft).mapped.map num)) h
    (by omega) (by omega) hD (fun i _ hw => by
      have : i = j := by simpa using hw
      subst this
      exact ⟨_, rfl, by simp [hR.length, hlenv]; rfl⟩)
  obtain ⟨want, hd, hT⟩ := C52_transform h ho'
  have hwant : ∀ i, want i = decide (i = j) := by
    rcases hd with ⟨h0, _⟩ | ⟨l, idx, h1, h2, h3⟩
    · cases h0
    · cases h1
      rw [resolveIdents_ok_iff _ _ _ (h.axisOk .feature)] at h2
      have h2' : [(.ok (j : Int) : Res Int)] = idx.map (fun (i : Nat) => (.ok (i : Int) : Res Int)) := by
        simpa [axis, getIndex_self' hjl] using h2
      have : idx = [j] := by
        match idx, h2' with
        | [x], h2' => simp at h2'; simp [h2']
      intro i; rw [h3, this]; simp
  refine ⟨o', _, (applyMap num (o.vector .feature j)).mapped, ?_, hT.wf, hT.pts, hT.fts, ?_, ?_, hR⟩
  · unfold featureToIntegers
    rw [if_neg (by omega), hj]
    simp only [ho', Int.toNat_natCast]
    rfl
  · have := hT.done j hjl (by simp [hwant])
    simpa using this.symm
  · intro k hk hkj
    exact hT.kept k hk (by simp [hwant, hkj])

end Obj

/-! ## C33 -/

private theorem seenKeys_aux (l : List V) : ∀ (d : PyDict V Unit) (seen : List V),
    (PyDict.keys d) = firstOcc seen →
    PyDict.keys (l.foldl (fun d v => PyDict.set d v ()) d) = firstOcc (seen ++ l) := by
  induction l with
  | nil => intro d seen h; simpa using h
  | cons v l ih =>
    intro d seen h
    rw [List.foldl_cons, ih _ (seen ++ [v])]
    · simp
    · rw [firstOcc_append_singleton]
      by_cases hv : v ∈ seen
      · rw [if_pos hv, PyDict.keys_set_of_mem (by rw [h, mem_firstOcc]; exact hv), h]
      · have hd : v ∉ PyDict.keys d := by rw [h, mem_firstOcc]; exact hv
        rw [if_neg hv, PyDict.set_of_not_mem hd, ← h]
        simp [PyDict.keys]

theorem seenKeys_eq (l : List V) : PyDict.keys (seenKeys l) = firstOcc l := by
  have := seenKeys_aux l [] [] rfl
  simpa [seenKeys] using this

/-- The unique values, in the order of the new features: each value of the feature once; in the
order of first occurrence unless the feature is numeric, in which case sorted. -/
theorem uniqueKeys_spec (E : EncOps V) (col : List V) :
    (uniqueKeys E col).Nodup ∧ (∀ v, v ∈ uniqueKeys E col ↔ v ∈ col) := by
  unfold uniqueKeys
  rw [seenKeys_eq]
  split
  · exact ⟨(List.mergeSort_perm _ _).nodup_iff.2 (nodup_firstOcc col),
      fun v => by rw [(List.mergeSort_perm _ _).mem_iff, mem_firstOcc]⟩
  · exact ⟨nodup_firstOcc col, fun v => mem_firstOcc⟩

private theorem binaryRows_ok (E : EncOps V) (uniq col : List V) (h : ∀ v ∈ col, v ∈ uniq) :
    binaryRows E uniq col =
      .ok (col.map (fun v => (List.replicate uniq.length E.zero).set (uniq.idxOf v) E.one)) := by
  induction col with
  | nil => rfl
  | cons v col ih =>
    simp only [binaryRows, binaryRow, if_pos (h v (by simp)), ih (fun w hw => h w (by simp [hw])),
      List.map_cons]
    rfl

private theorem hot_get (E : EncOps V) {uniq : List V} (hn : uniq.Nodup) {k : Nat} {u x : V}
    (hk : uniq[k]? = some u) (hx : x ∈ uniq) :
    ((List.replicate uniq.length E.zero).set (uniq.idxOf x) E.one)[k]? =
      some (if x = u then E.one else E.zero) := by
  have hkl : k < uniq.length := by
    rcases Nat.lt_or_ge k uniq.length with h | h
    · exact h
    · rw [List.getElem?_eq_none h] at hk; cases hk
  rw [List.getElem?_eq_getElem hkl] at hk
  have hk' : uniq[k] = u := by simpa using hk
  rw [List.getElem?_set]
  by_cases he : uniq.idxOf x = k
  · have hxu : x = u := by
      rw [← hk']; subst he
      exact (List.getElem_idxOf _).symm
    rw [if_pos he, if_pos hxu, if_pos (by simp only [List.length_replicate]; rw [he]; exact hkl)]
  · have hxu : x ≠ u := by
      intro hxu; apply he
      rw [hxu, ← hk']
      exact hn.idxOf_getElem k hkl
    simp [he, hkl, hxu]

private theorem append_left_inj' {a b c : String} (h : a ++ b = a ++ c) : b = c := by
  have := congrArg String.toList h
  simp only [String.toList_append] at this
  have h2 := List.append_cancel_left this
  exact String.toList_inj.1 h2

private theorem filterMap_map_some {A B C : Type} (l : List A) (f : A → B) (g : B → Option C)
    (k : A → C) (h : ∀ a ∈ l, g (f a) = some (k a)) : (l.map f).filterMap g = l.map k := by
  induction l with
  | nil => rfl
  | cons a l ih =>
    simp only [List.map_cons]
    rw [List.filterMap_cons, h a (by simp)]
    simp only [List.cons.injEq, true_and]
    exact ih (fun b hb => h b (by simp [hb]))

namespace Obj

/-- The text in front of the value in the new names: the name of the feature (or its index when the
object has no feature names) and an equals sign. -/
def PrefixIs (o : Obj V) (j : Nat) (pre : String) : Prop :=
  (o.fts.namesCreated = false ∧ pre = Nat.repr j ++ "=") ∨
  ∃ s, o.fts.getNames[j]? = some (some s) ∧ pre = s ++ "="

/-- The new features: for each distinct value, in the order `uniq`, one feature holding one where
the old feature has this value and zero elsewhere. -/
def hotLines (E : EncOps V) (pre : String) (uniq col : List V) : List (Option String × List V) :=
  uniq.map (fun u => (some (pre ++ E.str u), col.map (fun x => if x = u then E.one else E.zero)))

private theorem setNames_same {a : AxisSt} (h : a.Ok) {b : AxisSt} (hl : b.len = a.len) :
    ∃ c, b.setNames (asAssign a.getNamesNoGen) = .ok c ∧ c.Ok ∧ c.len = a.len ∧
      c.getNames = a.getNames ∧ c.tbl.isSome = a.tbl.isSome := by
  cases hT : a.tbl with
  | none =>
    refine ⟨⟨b.len, none⟩, by simp [asAssign, AxisSt.getNamesNoGen, hT, AxisSt.setNames],
      none_ok _, hl, ?_, rfl⟩
    simp [AxisSt.getNames, hT, hl]
  | some t =>
    have hok := h t hT
    have h1 : t.inv.length = b.len := by rw [hl]; exact hok.length_inv
    refine ⟨⟨b.len, some ⟨namedPairs 0 t.inv, t.inv⟩⟩, ?_, mk_ok h1 hok.reduceOption_nodup, hl, ?_, rfl⟩
    · simp only [asAssign, AxisSt.getNamesNoGen, hT]
      show b.setNames (.list t.inv) = _
      rw [setNames_list_eq, if_pos ⟨h1, hok.reduceOption_nodup⟩]
    · simp [AxisSt.getNames, hT]

private theorem binaryObj_ok (E : EncOps V) {rep : Obj V} {pts : AxisSt} {index : Nat} {pre : String}
    {col : List V} (hcol : rep.vector .feature 0 = col) (hp : pts.Ok) (hlen : col.length = pts.len)
    (hpos : 0 < pts.len)
    (hpre : binaryPrefix rep.fts index = .ok pre)
    (hinj : ∀ v ∈ col, ∀ w ∈ col, E.str v = E.str w → v = w) :
    ∃ b, binaryObj E rep pts index = .ok (b, (uniqueKeys E col).map (fun v => pre ++ E.str v)) ∧
      b.WF ∧ b.pts.len = pts.len ∧ b.pts.getNames = pts.getNames ∧
      b.fts.len = (uniqueKeys E col).length ∧
      b.fts.getNames = (uniqueKeys E col).map (fun v => some (pre ++ E.str v)) ∧
      b.lines .feature = hotLines E pre (uniqueKeys E col) col := by
  obtain ⟨hun, hum⟩ := uniqueKeys_spec E col
  generalize hu : uniqueKeys E col = uniq at *
  have hrows := binaryRows_ok E uniq col (fun v hv => (hum v).2 hv)
  generalize hR : col.map (fun v => (List.replicate uniq.length E.zero).set (uniq.idxOf v) E.one)
    = rows at hrows
  have hrl : rows.length = pts.len := by rw [← hR]; simpa using hlen
  have hrc : ∀ r ∈ rows, r.length = uniq.length := by
    intro r hr; rw [← hR] at hr
    obtain ⟨v, _, rfl⟩ := List.mem_map.1 hr
    simp
  have hmk : makeFrom rows uniq.length none none = .ok ⟨rows, ⟨pts.len, none⟩, ⟨uniq.length, none⟩⟩ := by
    rw [makeFrom_eq hrl hrc]; rfl
  obtain ⟨bp, hbp, hbpo, hbpl, hbpn, -⟩ := setNames_same hp (b := ⟨pts.len, none⟩) rfl
  let names : List (Option String) := (uniq.map (fun v => pre ++ E.str v)).map some
  have hnl : names.length = uniq.length := by simp [names]
  have hnn : names.reduceOption.Nodup := by
    simp only [names, reduceOption_map_some]
    refine List.Nodup.map_on ?_ hun
    intro x hx y hy he
    exact hinj x ((hum x).1 hx) y ((hum y).1 hy) (append_left_inj' he)
  have hbf : AxisSt.setNames ⟨uniq.length, none⟩ (.list names) =
      .ok ⟨uniq.length, some ⟨namedPairs 0 names, names⟩⟩ := by
    rw [setNames_list_eq, if_pos ⟨hnl, hnn⟩]
  refine ⟨⟨rows, bp, ⟨uniq.length, some ⟨namedPairs 0 names, names⟩⟩⟩, ?_, ?_, hbpl, hbpn, rfl, ?_, ?_⟩
  · unfold binaryObj
    simp only [hcol, hu, hrows, bind, Except.bind, hmk, hbp, hpre]
    have hbf' := hbf
    simp only [names] at hbf'
    rw [hbf']
    rfl
  · exact ⟨by rw [hrl, hbpl], hrc, hbpo, mk_ok hnl hnn⟩
  · simp [AxisSt.getNames, names, Function.comp_def]
  · apply List.ext_getElem?
    intro k
    by_cases hk : k < uniq.length
    · rw [getElem?_lines _ .feature hk]
      simp only [hotLines, List.getElem?_map, List.getElem?_eq_getElem hk, Option.map_some,
        Option.some.injEq, Prod.mk.injEq]
      constructor
      · simp [axis, AxisSt.getNames, names, hk]
      · simp only [vector, ← hR]
        apply filterMap_map_some
        intro x hx
        exact hot_get E hun (List.getElem?_eq_getElem hk) ((hum x).2 hx)
    · rw [List.getElem?_eq_none (by rw [length_lines]; show uniq.length ≤ k; omega),
        List.getElem?_eq_none (by simp [hotLines]; omega)]

/-- **C33**, when the feature has a name or the object has no feature names at all
(`C33_default_name_violated` for the rest), different values print differently and no other feature
already carries one of the new names: feature `j` is replaced in place by one feature per distinct
value, holding one exactly where the value was; everything else is unchanged. -/
theorem C33_replaceFeatureWithBinaryFeatures_partial (E : EncOps V)
    {samp : List Nat → Nat → List Nat} {o : Obj V} (h : o.WF) {id : Ident} {j : Nat} {pre : String}
    (hp : 0 < o.pts.len) (hj : o.fts.getIndex id = .ok (j : Int)) (hpre : o.PrefixIs j pre)
    (hinj : ∀ v ∈ o.vector .feature j, ∀ w ∈ o.vector .feature j, E.str v = E.str w → v = w)
    (hfree : ∀ v ∈ o.vector .feature j, ∀ k, k ≠ j →
      o.fts.getNames[k]? ≠ some (some (pre ++ E.str v))) :
    ∃ r uniq, o.replaceWithBinary E samp id = (r, .ok (uniq.map (fun v => pre ++ E.str v))) ∧
      uniq.Nodup ∧ (∀ v, v ∈ uniq ↔ v ∈ o.vector .feature j) ∧ r.WF ∧
      r.lines .feature = (o.lines .feature).take j ++ hotLines E pre uniq (o.vector .feature j) ++
        (o.lines .feature).drop (j + 1) ∧
      r.pts.len = o.pts.len ∧ r.pts.getNames = o.pts.getNames := by
  have hb := getIndex_bound h.fts hj
  have hjl : j < o.fts.len := by omega
  have ht : o.targets samp .feature { target := some (.list [.int (j : Int)]) } = .ok [j] := by
    rw [C08_list_selector h]
    simp [axis, getIndex_self' hjl]
  have hb1 : ∀ i ∈ [j], i < (o.axis .feature).len := by intro i hi; simp at hi; subst hi; exact hjl
  obtain ⟨rep, hrep, S⟩ := selected_spec h .feature (tgt := [j]) (by simp) hb1
  have R := remaining_spec h .feature (tgt := [j]) (by simp) hb1
  have hrepl : (rep.axis .feature).len = 1 := S.len
  have hx : o.extract samp .feature { target := some (.list [.int (j : Int)]) } =
      (o.remaining .feature [j] 1, .ok rep) := by
    unfold extract
    simp only [ht, hrep, bind, Except.bind, pure, Except.pure, hrepl]
  generalize hq : o.remaining .feature [j] 1 = q at hx
  have Rq : SelectedSpec o q .feature (restIdx o.fts.len [j]) := by rw [← hq]; exact R
  clear R hq
  have hcolv : rep.vector .feature 0 = o.vector .feature j :=
    vector_selData h hb1 S.data (by simp)
  have hqlen : q.fts.len = o.fts.len - 1 := by
    have h1 : q.fts.len = _ := Rq.len
    rw [h1]
    have := length_rest (n := o.fts.len) (idxs := [j]) (by simp) (by simpa using hjl)
    simpa [restIdx] using this
  have hsplit : ∀ {α : Type} (l : List α), l.length = o.fts.len →
      pick l (restIdx o.fts.len [j]) = l.take j ++ l.drop (j + 1) := by
    intro α l hl
    have hlj : j < l.length := by omega
    have := pick_restIdx_block (l.take j) [l[j]] (l.drop (j + 1))
    have e1 : l.take j ++ [l[j]] ++ l.drop (j + 1) = l := by
      rw [List.take_append_getElem, List.take_append_drop]
    have e2 : (l.take j).length = j := by simp; omega
    rw [e1, e2] at this
    simp only [List.length_singleton, List.length_drop] at this
    have e3 : j + 1 + (l.length - (j + 1)) = o.fts.len := by omega
    rw [e3] at this
    simpa using this
  have hqlines : q.lines .feature = (o.lines .feature).take j ++ (o.lines .feature).drop (j + 1) := by
    rw [Rq.lines h restIdx_bound]
    exact hsplit _ (length_lines o .feature)
  have hqnames : q.fts.getNames = o.fts.getNames.take j ++ o.fts.getNames.drop (j + 1) := by
    have h1 : q.fts.getNames = _ := Rq.names
    rw [h1]; exact hsplit _ h.fts.length_getNames
  have hqp : q.pts.len = o.pts.len := Rq.offLen
  have hqpn : q.pts.getNames = o.pts.getNames := Rq.offNames
  have hpre' : binaryPrefix rep.fts j = .ok pre := by
    have hcr : rep.fts.tbl.isSome = o.fts.tbl.isSome := S.created
    have hnm : rep.fts.getNames = pick o.fts.getNames [j] := S.names
    unfold binaryPrefix
    rcases hpre with ⟨h1, h2⟩ | ⟨s, h1, h2⟩
    · cases hT : rep.fts.tbl with
      | none => rw [h2]
      | some t =>
        exfalso
        rw [hT] at hcr
        simp [AxisSt.namesCreated] at h1
        rw [h1] at hcr; cases hcr
    · cases hT : rep.fts.tbl with
      | none =>
        exfalso
        rw [hT] at hcr
        cases hO : o.fts.tbl with
        | none => simp [AxisSt.getNames, hO, hjl] at h1
        | some t => rw [hO] at hcr; cases hcr
      | some t =>
        rw [AxisSt.getNames_of_some hT] at hnm
        have : t.inv = [some s] := by rw [hnm]; simp [pick, h1]
        simp [this, h2]
  obtain ⟨b, hbo, bwf, bpl, bpn, bfl, bfn, blines⟩ := binaryObj_ok E (index := j) hcolv Rq.wf.pts
    (by rw [h.length_vector .feature hjl]; exact hqp.symm) (by omega) hpre' hinj
  have hpos : insertPos (q.axis .feature) (if q.fts.len = 0 then none else some (.int (j : Int))) = .ok j := by
    by_cases hz : q.fts.len = 0
    · rw [if_pos hz]
      show (.ok q.fts.len : Res Nat) = _
      rw [hz]; congr 1; show 0 = j; omega
    · rw [if_neg hz]
      by_cases hjq : j = q.fts.len
      · rw [((C11_insert_position (a := q.axis .feature) Rq.wf.fts (.int (j : Int)) j).2).2]
        exact Or.inl ⟨by rw [hjq]; rfl, hz, hjq⟩
      · rw [((C11_insert_position (a := q.axis .feature) Rq.wf.fts (.int (j : Int)) j).2).2]
        refine Or.inr ⟨?_, getIndex_self' (a := q.fts) (by omega)⟩
        intro he
        simp only [Ident.int.injEq] at he
        have : (j : Int) = (q.fts.len : Int) := he
        omega
  obtain ⟨hun, hum⟩ := uniqueKeys_spec E (o.vector .feature j)
  have hacc := (C12_insert_accepts_iff Rq.wf bwf .feature hpos).2 ⟨bpl.symm, by
      intro s hs hs'
      have hs2 : some s ∈ b.fts.getNames := hs'
      rw [bfn] at hs2
      obtain ⟨v, hv, he⟩ := List.mem_map.1 hs2
      have he' : pre ++ E.str v = s := by simpa using he
      have hs1 : some s ∈ q.fts.getNames := hs
      rw [hqnames] at hs1
      have hvc := (hum v).1 hv
      rcases List.mem_append.1 hs1 with h1 | h1
      · obtain ⟨k, hk⟩ := List.mem_iff_getElem?.1 h1
        have hkj : k < j := by
          rcases Nat.lt_or_ge k j with h' | h'
          · exact h'
          · rw [List.getElem?_take, if_neg (by omega)] at hk; cases hk
        rw [List.getElem?_take_of_lt hkj] at hk
        exact hfree v hvc k (by omega) (by rw [hk, he'])
      · obtain ⟨k, hk⟩ := List.mem_iff_getElem?.1 h1
        rw [List.getElem?_drop] at hk
        exact hfree v hvc (j + 1 + k) (by omega) (by rw [hk, he']),
    Or.inl (by show q.pts.getNames = b.pts.getNames; rw [bpn])⟩
  obtain ⟨r, hr⟩ := hacc
  obtain ⟨ins, A, hal, -, -, rwf, -, roff, rl⟩ := insert_ok Rq.wf bwf hpos hr
  have hins : ins = b := by
    have hne : alignNames q b .feature = .ok b := by
      unfold alignNames
      rw [if_neg]
      have : q.pts.getNames = b.pts.getNames := by rw [bpn]
      simp [Ax.off, axis, this]
    rw [hne] at hal; cases hal; rfl
  subst hins
  refine ⟨r, uniqueKeys E (o.vector .feature j), ?_, hun, hum, rwf, ?_, ?_, ?_⟩
  · unfold replaceWithBinary
    rw [if_neg (by omega), hj]
    simp only [hx, Int.toNat_natCast, hbo, hr]
  · rw [rl, hqlines, blines]
    have e : ((o.lines .feature).take j).length = j := by
      rw [List.length_take, length_lines]; show min j o.fts.len = j; omega
    congr 1
    · congr 1
      rw [List.take_append_of_le_length (by omega), List.take_of_length_le (by omega)]
    · rw [List.drop_append_of_le_length (by omega), List.drop_of_length_le (by omega)]; rfl
  · have : r.pts = q.pts := roff
    rw [this, hqp]
  · have : r.pts = q.pts := roff
    rw [this, hqpn]

/-- **C33** (one-hot): in the new features every point has exactly one 1, in the feature of its value,
and zeros elsewhere. -/
theorem C33_one_hot (E : EncOps V) (hne : E.one ≠ E.zero) (pre : String) {uniq col : List V}
    (hn : uniq.Nodup) (hm : ∀ v, v ∈ uniq ↔ v ∈ col) {i : Nat} {x : V} (hi : col[i]? = some x) :
    ∃ k : Nat, uniq[k]? = some x ∧
      ∀ k' : Nat, k' < (hotLines E pre uniq col).length →
        ((hotLines E pre uniq col)[k']?).bind (fun l => l.2[i]?) =
          some (if k' = k then E.one else E.zero) := by
  have hx : x ∈ uniq := (hm x).2 (List.mem_of_getElem? hi)
  obtain ⟨k, hk, hkx⟩ := List.mem_iff_getElem.1 hx
  refine ⟨k, by rw [List.getElem?_eq_getElem hk, hkx], ?_⟩
  intro k' hk'
  have hk'' : k' < uniq.length := by simpa [hotLines] using hk'
  simp only [hotLines, List.getElem?_map, List.getElem?_eq_getElem hk'', Option.map_some,
    Option.bind_some, hi, Option.some.injEq]
  by_cases he : k' = k
  · subst he; rw [if_pos hkx.symm, if_pos rfl]
  · rw [if_neg he, if_neg]
    intro h2
    exact he ((hn.getElem_inj_iff).1 (by rw [hkx, h2]))

/-- **C33** (order): features that are not converted to numbers keep the order of first occurrence,
numeric ones are sorted. -/
theorem C33_order (E : EncOps V) (col : List V) :
    (E.numeric col = false → uniqueKeys E col = firstOcc col) ∧
    (E.numeric col = true → (∀ a b, E.le a b = true ∨ E.le b a = true) →
      (∀ a b c, E.le a b = true → E.le b c = true → E.le a c = true) →
      (uniqueKeys E col).Pairwise (fun a b => E.le a b = true)) := by
  unfold uniqueKeys
  rw [seenKeys_eq]
  constructor
  · intro h; rw [if_neg (by simp [h])]
  · intro h htot htr
    rw [if_pos h]
    refine List.pairwise_mergeSort (fun a b c => htr a b c) (fun a b => ?_) _
    rcases htot a b with h1 | h1 <;> simp [h1]

/-! ### Witnesses -/

/-- Two named features, three points. -/
def encEx : Obj Nat :=
  ⟨[[7, 5], [0, 5], [7, 6]], ⟨3, none⟩, ⟨2, some ⟨[("a", 0), ("b", 1)], [some "a", some "b"]⟩⟩⟩

theorem encEx_wf : encEx.WF := by
  refine ⟨rfl, by decide, none_ok _, ?_⟩
  intro t ht; simp only [encEx, Option.some.injEq] at ht; subst ht
  exact namedPairs_ok (l := [some "a", some "b"]) (by decide)

/-- Natural numbers, sorted. -/
def natOps : EncOps Nat := ⟨0, 1, Nat.repr, fun _ => true, fun a b => decide (a ≤ b)⟩

def noSample (l : List Nat) (_ : Nat) : List Nat := l

example : encEx.featureToIntegers id (.str "a") =
    ({ encEx with data := [[1, 5], [0, 5], [1, 6]] }, .ok [(1, 7), (0, 0)]) := by
  with_unfolding_all decide +kernel
example : (encEx.replaceWithBinary { natOps with numeric := fun _ => false } noSample (.str "b")).1.lines .feature =
    [(some "a", [7, 0, 7]), (some "b=5", [1, 1, 0]), (some "b=6", [0, 0, 1])] := by
  with_unfolding_all decide +kernel
example : encEx.PrefixIs 1 "b=" := Or.inr ⟨"b", rfl, rfl⟩

/-- C33 is false for a feature without a name in an object that has feature names: the call raises
and the feature is gone. -/
theorem C33_default_name_violated :
    ∃ (o o' : Obj Nat) (e : Err), o.WF ∧ 0 < o.pts.len ∧ o.fts.getIndex (.int 1) = .ok 1 ∧
      o.replaceWithBinary natOps noSample (.int 1) = (o', .error e) ∧ o'.fts.len < o.fts.len := by
  refine ⟨⟨[[7, 5], [0, 5]], ⟨2, none⟩, ⟨2, some ⟨[("a", 0)], [some "a", none]⟩⟩⟩,
    ⟨[[7], [0]], ⟨2, none⟩, ⟨1, some ⟨[("a", 0)], [some "a"]⟩⟩⟩, .TypeError, ?_, by decide, by decide,
    by with_unfolding_all decide +kernel, by decide⟩
  refine ⟨rfl, by decide, none_ok _, ?_⟩
  intro t ht; simp only [Option.some.injEq] at ht; subst ht
  exact namedPairs_ok (l := [some "a", none]) (by decide)

/-- C33 (refusal leaves the object alone) is false: when a new name is taken the call raises and the
feature is gone. -/
theorem C33_atomic_violated :
    ∃ (o o' : Obj Nat) (e : Err), o.WF ∧
      o.replaceWithBinary natOps noSample (.str "b") = (o', .error e) ∧ o'.fts.len < o.fts.len := by
  refine ⟨⟨[[7, 5], [0, 5]], ⟨2, none⟩, ⟨2, some ⟨[("b=5", 0), ("b", 1)], [some "b=5", some "b"]⟩⟩⟩,
    ⟨[[7], [0]], ⟨2, none⟩, ⟨1, some ⟨[("b=5", 0)], [some "b=5"]⟩⟩⟩, .InvalidArgumentValue, ?_,
    by with_unfolding_all decide +kernel, by decide⟩
  refine ⟨rfl, by decide, none_ok _, ?_⟩
  intro t ht; simp only [Option.some.injEq] at ht; subst ht
  exact namedPairs_ok (l := [some "b=5", some "b"]) (by decide)

end Obj
end Nimble
