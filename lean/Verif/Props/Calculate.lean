import Verif.Model.Calculate
import Verif.Lemmas.Structural

/-!
# C51: calculate keeps results and names together
-/

namespace Nimble
namespace Obj
variable {V W : Type}

private theorem calcLoop_ok {f : AxView V → Res (CalcOut W)} {o : Obj V} {ax : Ax} {idx : List Nat}
    {outs : List (CalcOut W)} (h : calcLoop f o ax idx = .ok outs) :
    outs.length = idx.length ∧ ∀ (k i : Nat), idx[k]? = some i →
      ∃ out, outs[k]? = some out ∧ f (o.view ax none i) = .ok out := by
  induction idx generalizing outs with
  | nil => simp [calcLoop] at h; subst h; simp
  | cons i idx ih =>
    simp only [calcLoop] at h
    cases h1 : f (o.view ax none i) with
    | error e => simp [h1] at h; cases h
    | ok out =>
      cases h2 : calcLoop f o ax idx with
      | error e => simp [h1, h2] at h; cases h
      | ok rest =>
        simp [h1, h2] at h; cases h
        obtain ⟨hl, hk⟩ := ih h2
        refine ⟨by simp [hl], ?_⟩
        intro k j hkj
        cases k with
        | zero => simp at hkj; subst hkj; exact ⟨out, by simp, h1⟩
        | succ k => simpa using hk k j (by simpa using hkj)

private theorem calcObject_ok {ax : Ax} {rows : List (List W)} {r : Obj W}
    (h : calcObject ax rows = .ok r) :
    (r.axis ax).len = rows.length ∧ (∀ row ∈ rows, row.length = (r.axis ax.off).len) ∧
    r.WF ∧ ∀ (k : Nat) (row : List W), rows[k]? = some row → r.vector ax k = row := by
  unfold calcObject at h
  generalize hw : (rows.head?.map List.length).getD 0 = w at h
  simp only at h
  split at h
  · rename_i hall
    have hrow : ∀ row ∈ rows, row.length = w := by
      intro row hr
      have := List.all_eq_true.1 hall row hr
      simpa using this
    cases ax with
    | point =>
      cases h
      refine ⟨rfl, hrow, ⟨rfl, hrow, none_ok _, none_ok _⟩, ?_⟩
      intro k row hk
      simp [vector, hk]
    | feature =>
      cases h
      refine ⟨rfl, hrow, ⟨by simp [transposeData], ?_, none_ok _, none_ok _⟩, ?_⟩
      · intro c hc
        simp only [transposeData, List.mem_map, List.mem_range] at hc
        obtain ⟨j, hj, rfl⟩ := hc
        rw [length_filterMap_col (fun r hr => by rw [hrow r hr]; exact hj)]
      · intro k row hk
        have hkl := (List.getElem?_eq_some_iff.1 hk).1
        simp only [vector, transposeData, List.filterMap_map]
        have : (List.range w).filterMap ((fun x : List W => x[k]?) ∘
            fun j => rows.filterMap (fun x => x[j]?)) = (List.range w).filterMap (fun j => row[j]?) := by
          apply List.filterMap_congr
          intro j hj
          simp only [Function.comp]
          rw [getElem?_filterMap_col (fun r hr => by rw [hrow r hr]; simpa using hj), hk]
          rfl
        rw [this]
        exact pick_range_of_eq row (hrow row (List.mem_of_getElem? hk)).symm
  · cases h

private theorem setOptNames_ok {a a' : AxisSt} {l : Option (List (Option String))}
    (ha : a.Ok) (hn : a.tbl = none) (h : setOptNames a l = .ok a') :
    a'.Ok ∧ a'.len = a.len ∧ a'.getNames = l.getD (List.replicate a.len none) := by
  cases l with
  | none => simp [setOptNames] at h; subst h; exact ⟨ha, rfl, by simp [AxisSt.getNames, hn]⟩
  | some l =>
    obtain ⟨h1, h2, h3, h4⟩ := setNames_list_ok h
    refine ⟨h4, by rw [h3], by rw [h3]; rfl⟩

/-- The indices a `points=`/`features=` argument denotes, in the order of the argument. -/
def CalcDenotes (a : AxisSt) (limitTo : Option (List Ident)) (idx : List Nat) : Prop :=
  (limitTo = none ∧ idx = List.range a.len) ∨ (∃ ids, limitTo = some ids ∧ resolveIdents a ids = .ok idx)

/-- The full statement: the result has one point (feature) per selected one, in the order
requested, holding what the function returned for it, under *its own* name. -/
def CalculateCorrect (f : AxView V → Res (CalcOut W)) (o : Obj V) (ax : Ax)
    (limitTo : Option (List Ident)) : Prop :=
  ∀ r, calculate f o ax limitTo = .ok r → ∃ idx, CalcDenotes (o.axis ax) limitTo idx ∧
    r.WF ∧ (r.axis ax).len = idx.length ∧
    ∀ (k i : Nat), idx[k]? = some i → (∃ out, f (o.view ax none i) = .ok out ∧
        r.vector ax k = out.vals) ∧
      ((r.axis ax).getNames[k]?).join = ((o.axis ax).getNames[i]?).join

/-- What holds without restriction: order, number and values of the results. -/
theorem C51_calculate_values {f : AxView V → Res (CalcOut W)} {o : Obj V} {ax : Ax}
    {limitTo : Option (List Ident)} {r : Obj W} (hr : calculate f o ax limitTo = .ok r) :
    ∃ idx, CalcDenotes (o.axis ax) limitTo idx ∧ r.WF ∧ (r.axis ax).len = idx.length ∧
      (∀ (k i : Nat), idx[k]? = some i → ∃ out, f (o.view ax none i) = .ok out ∧
        r.vector ax k = out.vals) ∧
      (r.axis ax).getNames = (calcNames (o.axis ax) idx).getD (List.replicate idx.length none) := by
  unfold calculate at hr
  by_cases h1 : o.pts.len = 0
  · rw [if_pos h1] at hr; cases hr
  by_cases h2 : o.fts.len = 0
  · rw [if_neg h1, if_pos h2] at hr; cases hr
  rw [if_neg h1, if_neg h2] at hr
  obtain ⟨idx, hi, hr⟩ := Res.bind_ok.1 hr
  obtain ⟨outs, ho, hr⟩ := Res.bind_ok.1 hr
  obtain ⟨ret, hc, hr⟩ := Res.bind_ok.1 hr
  obtain ⟨a, ha, hr⟩ := Res.bind_ok.1 hr
  obtain ⟨b, hb, hr⟩ := Res.bind_ok.1 hr
  cases hr
  obtain ⟨hl, hk⟩ := calcLoop_ok ho
  obtain ⟨c1, c2, c3, c4⟩ := calcObject_ok hc
  have htbl : ∀ ax', (ret.axis ax').tbl = none := by
    intro ax'
    unfold calcObject at hc
    simp only at hc
    split at hc
    · cases ax <;> cases hc <;> cases ax' <;> rfl
    · cases hc
  obtain ⟨a1, a2, a3⟩ := setOptNames_ok (c3.axisOk ax) (htbl ax) ha
  have hoff : (ret.setAxis ax a).axis ax.off = ret.axis ax.off := by cases ax <;> rfl
  rw [hoff] at hb
  obtain ⟨b1, b2, b3⟩ := setOptNames_ok (c3.axisOk ax.off) (htbl ax.off) hb
  have hlen : (ret.axis ax).len = idx.length := by rw [c1]; simp [hl]
  refine ⟨idx, ?_, ?_, ?_, ?_, ?_⟩
  · cases limitTo with
    | none => simp [calcIndices] at hi; exact .inl ⟨rfl, hi.symm⟩
    | some ids => exact .inr ⟨ids, rfl, hi⟩
  · cases ax
    · exact ⟨c3.rows.trans a2.symm, fun r hr => (c3.cols r hr).trans b2.symm, a1, b1⟩
    · exact ⟨c3.rows.trans b2.symm, fun r hr => (c3.cols r hr).trans a2.symm, b1, a1⟩
  · have : (((ret.setAxis ax a).setAxis ax.off b).axis ax) = a := by cases ax <;> rfl
    rw [this, a2, hlen]
  · intro k i hki
    obtain ⟨out, hout, hf⟩ := hk k i hki
    refine ⟨out, hf, ?_⟩
    have : ((ret.setAxis ax a).setAxis ax.off b).vector ax k = ret.vector ax k := by cases ax <;> rfl
    rw [this]
    exact c4 k _ (by simp [hout])
  · have : (((ret.setAxis ax a).setAxis ax.off b).axis ax) = a := by cases ax <;> rfl
    rw [this, a3, hlen]

/-- **C51** (calculate), restricted to calls that select all points in order or fewer points than
there are; the unrestricted claim is false (`C51_calculate_violated`). -/
theorem C51_calculate_partial {f : AxView V → Res (CalcOut W)} {o : Obj V} {ax : Ax}
    {limitTo : Option (List Ident)} (h : o.WF)
    (hsel : ∀ idx, CalcDenotes (o.axis ax) limitTo idx →
      (∀ i ∈ idx, i < (o.axis ax).len) ∧
      (idx.length < (o.axis ax).len ∨ idx = List.range (o.axis ax).len)) :
    CalculateCorrect f o ax limitTo := by
  intro r hr
  obtain ⟨idx, h1, h2, h3, h4, h5⟩ := C51_calculate_values hr
  refine ⟨idx, h1, h2, h3, fun k i hki => ⟨h4 k i hki, ?_⟩⟩
  obtain ⟨hb, hsel'⟩ := hsel idx h1
  have hkl : k < idx.length := (List.getElem?_eq_some_iff.1 hki).1
  have hil : i < (o.axis ax).len := hb i (List.mem_of_getElem? hki)
  rw [h5]
  cases ht : (o.axis ax).tbl with
  | none =>
    have : (o.axis ax).namesCreated = false := by simp [AxisSt.namesCreated, ht]
    simp only [calcNames, this, AxisSt.getNames, ht]
    simp [hkl, hil]
  | some t =>
    have hc : (o.axis ax).namesCreated = true := by simp [AxisSt.namesCreated, ht]
    rcases hsel' with hlt | hr
    · have : calcNames (o.axis ax) idx = some (pick (o.axis ax).getNames idx) := by
        simp [calcNames, hlt, hc]
      rw [this, Option.getD_some,
        getElem?_pick (by rw [(h.axisOk ax).length_getNames]; exact hb), hki]; rfl
    · have : calcNames (o.axis ax) idx = some (o.axis ax).getNames := by
        simp [calcNames, hr, hc]
      rw [this, Option.getD_some]
      rw [hr] at hki
      have : k = i := by
        have hk' : k < (o.axis ax).len := by rw [hr] at hkl; simpa using hkl
        rw [List.getElem?_range hk'] at hki; simpa using hki
      rw [this]

/-- **C51** for calls without `points`/`features`: no restriction is needed. -/
theorem C51_calculate_all {f : AxView V → Res (CalcOut W)} {o : Obj V} {ax : Ax} (h : o.WF) :
    CalculateCorrect f o ax none := by
  apply C51_calculate_partial h
  intro idx hd
  rcases hd with ⟨_, rfl⟩ | ⟨ids, h, _⟩
  · exact ⟨by simp, .inr rfl⟩
  · cases h

/-- Two points named "a" and "b". -/
def calcEx : Obj Nat := ⟨[[1, 2], [3, 4]],
  ⟨2, some ⟨[("a", 0), ("b", 1)], [some "a", some "b"]⟩⟩, ⟨2, none⟩⟩

/-- The function `sum`. -/
def calcSum (v : AxView Nat) : Res (CalcOut Nat) := .ok ⟨[v.vals.sum], none⟩

theorem calcEx_WF : calcEx.WF := by
  refine ⟨rfl, by decide, ?_, none_ok 2⟩
  have := mk_ok (n := 2) (l := [some "a", some "b"]) rfl (by decide)
  exact this

example : (calculate calcSum calcEx .point none).toOption =
    some ⟨[[3], [7]], ⟨2, some ⟨[("a", 0), ("b", 1)], [some "a", some "b"]⟩⟩, ⟨1, none⟩⟩ := by decide
example : (calculate calcSum calcEx .point (some [.str "b"])).toOption =
    some ⟨[[7]], ⟨1, some ⟨[("b", 0)], [some "b"]⟩⟩, ⟨1, none⟩⟩ := by decide

/-- The claim is false when `points` lists all points in another order:
`calculate(sum, points=["b", "a"])` labels b's sum "a" and a's sum "b". -/
theorem C51_calculate_violated :
    ∃ o : Obj Nat, o.WF ∧ ¬ CalculateCorrect calcSum o .point (some [.str "b", .str "a"]) := by
  refine ⟨calcEx, calcEx_WF, fun hc => ?_⟩
  have hrun : calculate calcSum calcEx .point (some [.str "b", .str "a"]) =
      .ok ⟨[[7], [3]], ⟨2, some ⟨[("a", 0), ("b", 1)], [some "a", some "b"]⟩⟩, ⟨1, none⟩⟩ := by rfl
  obtain ⟨idx, hd, hW, hl, hk⟩ := hc _ hrun
  have hres : resolveIdents (calcEx.axis .point) [.str "b", .str "a"] = .ok [1, 0] := rfl
  rcases hd with ⟨h, _⟩ | ⟨ids, h, hi⟩
  · cases h
  · cases h
    rw [hres] at hi; cases hi
    exact absurd (hk 0 1 rfl).2 (by decide)

end Obj
end Nimble
