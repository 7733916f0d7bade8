import Verif.Model.Stretch
import Verif.Props.Binary
import Verif.Props.RepeatUnique
import Verif.Props.History

/-!
# C64: broadcasting with `stretch`
-/

namespace Nimble
open Obj
variable {V : Type}

/-! ### Specification -/

/-- The names of an axis along which an object with the single (possibly default) name `v` was
repeated to fit an axis with the names `o`: the names of `o` when `v` is a default name; the name
itself when the axis has length one; `v_1`, `v_2`, … when `o` has no names; none at all when both
sides have names. -/
def stretchedNames (v : Option String) (o : List (Option String)) : List (Option String) :=
  match v with
  | none => o
  | some a =>
    if o.length = 1 then [some a]
    else if ∀ x ∈ o, x = none then
      (List.range o.length).map (fun i => some (a ++ "_" ++ Nat.repr (i + 1)))
    else List.replicate o.length none

/-- The name of the only point (feature) of an axis. -/
def AxisSt.onlyName (a : AxisSt) : Option String := (a.getNames[0]?).join

/-- No default names were generated on the axis: it never got names, or has at least one. -/
def AxisSt.Plain (a : AxisSt) : Prop := a.tbl = none ∨ ∃ x ∈ a.getNames, x ≠ none

/-! ### Names along one axis -/

private theorem setList {n : Nat} {l : List (Option String)} (h1 : l.length = n)
    (h2 : l.reduceOption.Nodup) :
    ∃ c, AxisSt.setNames ⟨n, none⟩ (asAssign (some l)) = .ok c ∧ c.Ok ∧ c.len = n ∧ c.getNames = l := by
  refine ⟨⟨n, some ⟨namedPairs 0 l, l⟩⟩, ?_, mk_ok h1 h2, rfl, rfl⟩
  simp only [asAssign, setNames_list_eq]
  rw [if_pos ⟨h1, h2⟩]

private theorem setNone (n : Nat) :
    ∃ c, AxisSt.setNames ⟨n, none⟩ (asAssign none) = .ok c ∧ c.Ok ∧ c.len = n ∧
      c.getNames = List.replicate n none :=
  ⟨⟨n, none⟩, rfl, none_ok n, rfl, rfl⟩

theorem getNamesNoGen_some {a : AxisSt} {t : NameTable} (h : a.tbl = some t) :
    a.getNamesNoGen = some a.getNames := by
  simp [AxisSt.getNamesNoGen, AxisSt.getNames, h]

theorem getNamesNoGen_none {a : AxisSt} (h : a.tbl = none) : a.getNamesNoGen = none := by
  simp [AxisSt.getNamesNoGen, h]

private theorem truthy_some {l : List (Option String)} (h : 0 < l.length) :
    namesTruthy (some l) = true := by
  cases l with
  | nil => simp at h
  | cons x l => rfl

private theorem truthy_none : namesTruthy none = false := rfl

private theorem merged_left {l r : List (Option String)} (h : ∀ x ∈ r, x = none) :
    MergedNames l l r := by
  refine ⟨rfl, fun i s => ⟨Or.inl, fun h' => h'.elim id (fun h'' => ?_)⟩⟩
  have := h _ (List.mem_of_getElem? h''); cases this

private theorem merged_right {l r : List (Option String)} (hl : l.length = r.length)
    (h : ∀ x ∈ l, x = none) : MergedNames r l r := by
  refine ⟨hl.symm, fun i s => ⟨Or.inr, fun h' => h'.elim (fun h'' => ?_) id⟩⟩
  have := h _ (List.mem_of_getElem? h''); cases this

private theorem merged_self {l : List (Option String)} : MergedNames l l l :=
  ⟨rfl, fun _ _ => ⟨Or.inl, fun h => h.elim id id⟩⟩

/-- Names along the axis on which the two objects have the same length. -/
theorem stretch_matched (os : Bool) {s o : AxisSt} {n : Nat} (hs : s.Ok) (ho : o.Ok)
    (ls : s.len = n) (lo : o.len = n) (hn : 0 < n) (hag : NamesAgree s.getNames o.getNames) :
    ∃ names c, stretchNames os s o n n n = .ok names ∧
      AxisSt.setNames ⟨n, none⟩ (asAssign names) = .ok c ∧ c.Ok ∧ c.len = n ∧
      MergedNames c.getNames s.getNames o.getNames := by
  have gs := hs.length_getNames
  have go := ho.length_getNames
  have ds := hs.allDefault_iff
  have dO := ho.allDefault_iff
  have hcase : ∀ names : Option (List (Option String)),
      stretchNames os s o n n n = .ok names →
      ((names = none ∧ s.tbl = none ∧ o.tbl = none) ∨
        ∃ l, names = some l ∧ l.length = n ∧ l.reduceOption.Nodup ∧
          MergedNames l s.getNames o.getNames) →
      ∃ names c, stretchNames os s o n n n = .ok names ∧
        AxisSt.setNames ⟨n, none⟩ (asAssign names) = .ok c ∧ c.Ok ∧ c.len = n ∧
        MergedNames c.getNames s.getNames o.getNames := by
    intro names e h
    rcases h with ⟨rfl, h1, h2⟩ | ⟨l, rfl, h1, h2, h3⟩
    · obtain ⟨c, c1, c2, c3, c4⟩ := setNone n
      refine ⟨none, c, e, c1, c2, c3, ?_⟩
      rw [c4]
      have : s.getNames = List.replicate n none := by simp [AxisSt.getNames, h1, ls]
      rw [← this]
      exact merged_left (default_of_none h2)
    · obtain ⟨c, c1, c2, c3, c4⟩ := setList h1 h2
      exact ⟨some l, c, e, c1, c2, c3, by rw [c4]; exact h3⟩
  cases h1 : s.tbl with
  | none =>
    have es := getNamesNoGen_none h1
    have sd : s.allDefaultNames = true := ds.2 (default_of_none h1)
    cases h2 : o.tbl with
    | none =>
      have eo := getNamesNoGen_none h2
      refine hcase none ?_ (Or.inl ⟨rfl, h1, h2⟩)
      simp [stretchNames, es, eo]
    | some tO =>
      have eo := getNamesNoGen_some h2
      refine hcase (some o.getNames) ?_ (Or.inr ⟨_, rfl, by omega, ho.reduceOption_nodup,
        merged_right (by omega) (default_of_none h1)⟩)
      simp [stretchNames, es, eo, sd, namesTruthy]
  | some ts =>
    have es := getNamesNoGen_some h1
    have tS := truthy_some (l := s.getNames) (by omega)
    cases h2 : o.tbl with
    | none =>
      have eo := getNamesNoGen_none h2
      have od : o.allDefaultNames = true := dO.2 (default_of_none h2)
      refine hcase (some s.getNames) ?_ (Or.inr ⟨_, rfl, by omega, hs.reduceOption_nodup,
        merged_left (default_of_none h2)⟩)
      have hone : 1 < n ∨ n = 1 := by omega
      cases hsd : s.allDefaultNames <;> simp [stretchNames, es, eo, od, hsd, hone, tS, truthy_none]
    | some tO =>
      have eo := getNamesNoGen_some h2
      have tO := truthy_some (l := o.getNames) (by omega)
      by_cases heq : s.getNames = o.getNames
      · refine hcase (some s.getNames) ?_ (Or.inr ⟨_, rfl, by omega, hs.reduceOption_nodup, ?_⟩)
        · simp [stretchNames, es, eo, heq]
        · rw [heq]; exact merged_self
      · by_cases hsd : s.allDefaultNames = true
        · refine hcase (some o.getNames) ?_ (Or.inr ⟨_, rfl, by omega, ho.reduceOption_nodup,
            merged_right (by omega) (ds.1 hsd)⟩)
          simp [stretchNames, es, eo, heq, hsd, tO]
        · by_cases hod : o.allDefaultNames = true
          · refine hcase (some s.getNames) ?_ (Or.inr ⟨_, rfl, by omega, hs.reduceOption_nodup,
              merged_left (dO.1 hod)⟩)
            have hone : 1 < n ∨ n = 1 := by omega
            simp [stretchNames, es, eo, heq, hsd, hod, hone]
          · obtain ⟨m1, m2, m3⟩ := C15_merge (by omega) hs.reduceOption_nodup ho.reduceOption_nodup hag
            refine hcase (some (mergeNameLists s.getNames o.getNames)) ?_
              (Or.inr ⟨_, rfl, by omega, m3, m1, m2⟩)
            have hl : s.getNames.length = o.getNames.length := by omega
            simp [stretchNames, es, eo, heq, hsd, hod, hl, mergeNames]

private theorem numbered_nodup (a : String) (n : Nat) :
    ((List.range n).map (fun i => some (a ++ "_" ++ Nat.repr (i + 1)))).reduceOption.Nodup := by
  have : (List.range n).map (fun i => some (a ++ "_" ++ Nat.repr (i + 1))) =
      ((List.range n).map (fun i => a ++ "_" ++ Nat.repr (i + 1))).map some := by
    simp [List.map_map, Function.comp_def]
  rw [this, reduceOption_map_some]
  refine List.Nodup.map ?_ List.nodup_range
  intro i j h
  exact (copyName_inj h).2

private theorem names_one {s : AxisSt} (hs : s.Ok) (ls : s.len = 1) :
    s.getNames = [s.onlyName] := by
  have := hs.length_getNames
  unfold AxisSt.onlyName
  match h : s.getNames with
  | [x] => simp
  | [] => rw [h] at this; simp at this; omega
  | _ :: _ :: _ => rw [h] at this; simp at this; omega

private theorem numberedNames_some (n : Nat) (a : String) (l : List (Option String)) :
    numberedNames n (some (some a :: l)) =
      .ok (some ((List.range n).map (fun i => some (a ++ "_" ++ Nat.repr (i + 1))))) := rfl

/-- Names along the axis on which the source (length one) is repeated. -/
theorem stretch_repeated (os : Bool) {s o : AxisSt} {n : Nat} (hs : s.Ok) (ho : o.Ok)
    (ls : s.len = 1) (lo : o.len = n) (hn : 0 < n) (hp : s.Plain) :
    ∃ names c, stretchNames os s o 1 n n = .ok names ∧
      AxisSt.setNames ⟨n, none⟩ (asAssign names) = .ok c ∧ c.Ok ∧ c.len = n ∧
      c.getNames = stretchedNames s.onlyName o.getNames := by
  have gs := hs.length_getNames
  have go := ho.length_getNames
  have ds := hs.allDefault_iff
  have dO := ho.allDefault_iff
  have one := names_one hs ls
  have hsome : ∀ l : List (Option String), stretchNames os s o 1 n n = .ok (some l) → l.length = n →
      l.reduceOption.Nodup → l = stretchedNames s.onlyName o.getNames →
      ∃ names c, stretchNames os s o 1 n n = .ok names ∧
      AxisSt.setNames ⟨n, none⟩ (asAssign names) = .ok c ∧ c.Ok ∧ c.len = n ∧
      c.getNames = stretchedNames s.onlyName o.getNames := by
    intro l e h1 h2 h3
    obtain ⟨c, c1, c2, c3, c4⟩ := setList h1 h2
    exact ⟨some l, c, e, c1, c2, c3, by rw [c4, h3]⟩
  have hnone : stretchNames os s o 1 n n = .ok none →
      List.replicate n none = stretchedNames s.onlyName o.getNames →
      ∃ names c, stretchNames os s o 1 n n = .ok names ∧
      AxisSt.setNames ⟨n, none⟩ (asAssign names) = .ok c ∧ c.Ok ∧ c.len = n ∧
      c.getNames = stretchedNames s.onlyName o.getNames := by
    intro e h3
    obtain ⟨c, c1, c2, c3, c4⟩ := setNone n
    exact ⟨none, c, e, c1, c2, c3, by rw [c4, h3]⟩
  cases h1 : s.tbl with
  | none =>
    have es := getNamesNoGen_none h1
    have sd : s.allDefaultNames = true := ds.2 (default_of_none h1)
    have on : s.onlyName = none := by simp [AxisSt.onlyName, AxisSt.getNames, h1, ls]
    cases h2 : o.tbl with
    | none =>
      have eo := getNamesNoGen_none h2
      refine hnone (by simp [stretchNames, es, eo]) ?_
      rw [on]; simp [stretchedNames, AxisSt.getNames, h2, lo]
    | some tO =>
      have eo := getNamesNoGen_some h2
      refine hsome o.getNames ?_ (by omega) ho.reduceOption_nodup (by rw [on]; rfl)
      simp [stretchNames, es, eo, sd, namesTruthy]
  | some ts =>
    have es := getNamesNoGen_some h1
    obtain ⟨a, ha⟩ : ∃ a, s.onlyName = some a := by
      rcases hp with hp | ⟨x, hx, hx'⟩
      · rw [h1] at hp; cases hp
      · rw [one] at hx
        simp only [List.mem_singleton] at hx
        cases hoo : s.onlyName with
        | none => rw [hoo] at hx; exact absurd hx hx'
        | some a => exact ⟨a, rfl⟩
    rw [ha] at one
    have sd : s.allDefaultNames = false := by
      cases hb : s.allDefaultNames with
      | false => rfl
      | true =>
        have := ds.1 hb (some a) (by rw [one]; simp)
        cases this
    have sn : s.getNamesNoGen = some [some a] := by rw [es, one]
    have nd1 : [some a].reduceOption.Nodup := by rw [← one]; exact hs.reduceOption_nodup
    by_cases n1 : n = 1
    · subst n1
      have goal1 : [some a] = stretchedNames s.onlyName o.getNames := by
        rw [ha]; simp [stretchedNames, go, lo]
      have oo := names_one ho lo
      cases h2 : o.tbl with
      | none =>
        have eo := getNamesNoGen_none h2
        have od : o.allDefaultNames = true := dO.2 (default_of_none h2)
        refine hsome [some a] ?_ rfl nd1 goal1
        simp [stretchNames, sn, eo, od, sd]
      | some tO =>
        have eo := getNamesNoGen_some h2
        rw [oo] at eo
        refine hsome [some a] ?_ rfl nd1 goal1
        by_cases hq : some a = o.onlyName
        · simp [stretchNames, sn, eo, hq]
        · cases hod : o.allDefaultNames <;>
            simp [stretchNames, sn, eo, hq, sd, hod, mergeNames, mergeNameLists]
    · have hne : ¬ 1 = n := fun h => n1 h.symm
      have hlen : ¬ o.getNames.length = 1 := by omega
      by_cases hod : o.allDefaultNames = true
      · have hall : ∀ x ∈ o.getNames, x = none := dO.1 hod
        refine hsome ((List.range n).map (fun i => some (a ++ "_" ++ Nat.repr (i + 1)))) ?_ (by simp)
          (numbered_nodup a n) ?_
        · have hq : o.getNamesNoGen ≠ some [some a] := by
            cases h2 : o.tbl with
            | none => rw [getNamesNoGen_none h2]; simp
            | some tO =>
              rw [getNamesNoGen_some h2]
              intro hh
              simp only [Option.some.injEq] at hh
              rw [hh] at hlen; simp at hlen
          simp [stretchNames, sn, hod, sd, n1, Ne.symm hq, numberedNames_some]
        · rw [ha]
          simp only [stretchedNames, if_pos hall, go, lo, if_neg n1]
      · have hall : ¬ ∀ x ∈ o.getNames, x = none := fun h => hod (dO.2 h)
        have hod' : o.allDefaultNames = false := by simpa using hod
        have h2 : ∃ tt, o.tbl = some tt := by
          cases h2 : o.tbl with
          | none => exact absurd (default_of_none h2) hall
          | some tO => exact ⟨tO, rfl⟩
        obtain ⟨tt, h2⟩ := h2
        have eo := getNamesNoGen_some h2
        have hq : ¬ [some a] = o.getNames := by
          intro hh; rw [← hh] at hlen; simp at hlen
        refine hnone ?_ ?_
        · simp [stretchNames, sn, eo, hq, hod', sd, go, lo, hne]
        · rw [ha]
          simp only [stretchedNames, if_neg hall, go, lo, if_neg n1]

/-- Names along the axis on which the *other* stretch (length one) is repeated; the source has at
least two. -/
theorem stretch_repeated_other {s o : AxisSt} {n : Nat} (hs : s.Ok) (ho : o.Ok)
    (ls : s.len = n) (lo : o.len = 1) (hn : 2 ≤ n) (hp : o.Plain) :
    ∃ names c, stretchNames true s o n 1 n = .ok names ∧
      AxisSt.setNames ⟨n, none⟩ (asAssign names) = .ok c ∧ c.Ok ∧ c.len = n ∧
      c.getNames = stretchedNames o.onlyName s.getNames := by
  have gs := hs.length_getNames
  have ds := hs.allDefault_iff
  have dO := ho.allDefault_iff
  have one := names_one ho lo
  have hlen : ¬ s.getNames.length = 1 := by omega
  have hn1 : ¬ 1 = n := by omega
  have hn1' : ¬ n = 1 := by omega
  have hlt : 1 < n := by omega
  have tS := truthy_some (l := s.getNames) (by omega)
  have hsome : ∀ l : List (Option String), stretchNames true s o n 1 n = .ok (some l) → l.length = n →
      l.reduceOption.Nodup → l = stretchedNames o.onlyName s.getNames →
      ∃ names c, stretchNames true s o n 1 n = .ok names ∧
      AxisSt.setNames ⟨n, none⟩ (asAssign names) = .ok c ∧ c.Ok ∧ c.len = n ∧
      c.getNames = stretchedNames o.onlyName s.getNames := by
    intro l e h1 h2 h3
    obtain ⟨c, c1, c2, c3, c4⟩ := setList h1 h2
    exact ⟨some l, c, e, c1, c2, c3, by rw [c4, h3]⟩
  have hnone : stretchNames true s o n 1 n = .ok none →
      List.replicate n none = stretchedNames o.onlyName s.getNames →
      ∃ names c, stretchNames true s o n 1 n = .ok names ∧
      AxisSt.setNames ⟨n, none⟩ (asAssign names) = .ok c ∧ c.Ok ∧ c.len = n ∧
      c.getNames = stretchedNames o.onlyName s.getNames := by
    intro e h3
    obtain ⟨c, c1, c2, c3, c4⟩ := setNone n
    exact ⟨none, c, e, c1, c2, c3, by rw [c4, h3]⟩
  cases h2 : o.tbl with
  | none =>
    have eo := getNamesNoGen_none h2
    have od : o.allDefaultNames = true := dO.2 (default_of_none h2)
    have on : o.onlyName = none := by simp [AxisSt.onlyName, AxisSt.getNames, h2, lo]
    cases h1 : s.tbl with
    | none =>
      have es := getNamesNoGen_none h1
      refine hnone (by simp [stretchNames, es, eo]) ?_
      rw [on]; simp [stretchedNames, AxisSt.getNames, h1, ls]
    | some ts =>
      have es := getNamesNoGen_some h1
      refine hsome s.getNames ?_ (by omega) hs.reduceOption_nodup (by rw [on]; rfl)
      cases hsd : s.allDefaultNames <;>
        simp [stretchNames, es, eo, od, hsd, truthy_none, hlt, tS]
  | some tO =>
    have eo := getNamesNoGen_some h2
    obtain ⟨b, hb⟩ : ∃ b, o.onlyName = some b := by
      rcases hp with hp | ⟨x, hx, hx'⟩
      · rw [h2] at hp; cases hp
      · rw [one] at hx
        simp only [List.mem_singleton] at hx
        cases hoo : o.onlyName with
        | none => rw [hoo] at hx; exact absurd hx hx'
        | some a => exact ⟨a, rfl⟩
    rw [hb] at one
    have od : o.allDefaultNames = false := by
      cases hb' : o.allDefaultNames with
      | false => rfl
      | true =>
        have := dO.1 hb' (some b) (by rw [one]; simp)
        cases this
    have oN : o.getNamesNoGen = some [some b] := by rw [eo, one]
    have hq : s.getNamesNoGen ≠ some [some b] := by
      cases h1 : s.tbl with
      | none => rw [getNamesNoGen_none h1]; simp
      | some ts =>
        rw [getNamesNoGen_some h1]
        intro hh
        simp only [Option.some.injEq] at hh
        rw [hh] at hlen; simp at hlen
    by_cases hsd : s.allDefaultNames = true
    · have hall : ∀ x ∈ s.getNames, x = none := ds.1 hsd
      refine hsome ((List.range n).map (fun i => some (b ++ "_" ++ Nat.repr (i + 1)))) ?_ (by simp)
        (numbered_nodup b n) ?_
      · simp [stretchNames, oN, hsd, hq, hn1, namesTruthy, numberedNames_some]
      · rw [hb]
        simp only [stretchedNames, if_pos hall, gs, ls, if_neg hn1']
    · have hall : ¬ ∀ x ∈ s.getNames, x = none := fun h => hsd (ds.2 h)
      have hsd' : s.allDefaultNames = false := by simpa using hsd
      have h1 : ∃ ts, s.tbl = some ts := by
        cases h1 : s.tbl with
        | none => exact absurd (default_of_none h1) hall
        | some ts => exact ⟨ts, rfl⟩
      obtain ⟨ts, h1⟩ := h1
      have es := getNamesNoGen_some h1
      have hq' : ¬ s.getNames = [some b] := by
        intro hh; rw [hh] at hlen; simp at hlen
      refine hnone ?_ ?_
      · simp [stretchNames, oN, es, hq', hsd', od, gs, ls, hn1']
      · rw [hb]
        simp only [stretchedNames, if_neg hall, gs, ls, if_neg hn1']

/-! ### Data -/

/-- Index into an axis of length `n` that is repeated when it has length one. -/
def fitIdx (n i : Nat) : Nat := if n = 1 then 0 else i

private theorem bcast_length {α : Type} {n m : Nat} {l : List α} (hl : l.length = m)
    (h : m = 1 ∨ m = n) : (bcast n l).length = n := by
  match l with
  | [x] => simp [bcast]
  | [] => simp [bcast] at *; omega
  | _ :: _ :: _ => simp [bcast] at *; omega

private theorem bcast_get {α : Type} {n m : Nat} {l : List α} (hl : l.length = m)
    (h : m = 1 ∨ m = n) {i : Nat} (hi : i < n) : (bcast n l)[i]? = l[fitIdx m i]? := by
  unfold fitIdx
  match l with
  | [x] => simp at hl; subst hl; simp [bcast, hi]
  | [] => simp at hl; subst hl; simp [bcast]
  | x :: y :: l =>
    simp at hl
    rw [if_neg (by omega)]; rfl

private theorem fit_lt {n m i : Nat} (h : m = 1 ∨ m = n) (hi : i < n) : fitIdx m i < m := by
  unfold fitIdx; split <;> omega

/-- The two axes can be broadcast. -/
def Fits (a b : Nat) : Prop := a = 1 ∨ b = 1 ∨ a = b

private theorem Fits.dims {a b : Nat} (h : Fits a b) :
    (a = 1 ∨ a = bdim a b) ∧ (b = 1 ∨ b = bdim a b) := by
  unfold Fits at h; unfold bdim; split <;> omega

private theorem bc_row {d : Obj V} (hd : d.WF) {p q : Nat} (hp : d.pts.len = 1 ∨ d.pts.len = p)
    (hq : d.fts.len = 1 ∨ d.fts.len = q) {i : Nat} (hi : i < p) :
    ∃ r, ((bcast p d.data).map (bcast q))[i]? = some r ∧ r.length = q ∧
      ∀ j, j < q → r[j]? = d.elem? (fitIdx d.pts.len i) (fitIdx d.fts.len j) := by
  obtain ⟨r1, h1, _, l1⟩ := hd.vector_point (fit_lt hp hi)
  refine ⟨bcast q r1, ?_, bcast_length l1 hq, ?_⟩
  · rw [List.getElem?_map, bcast_get hd.rows hp hi, h1]; rfl
  · intro j hj
    rw [bcast_get l1 hq hj]
    simp [Obj.elem?, h1]

theorem stretchData_elem (f : V → V → V) {s o : Obj V} (hs : s.WF) (ho : o.WF)
    (hp : Fits s.pts.len o.pts.len) (hq : Fits s.fts.len o.fts.len) {i j : Nat}
    (hi : i < bdim s.pts.len o.pts.len) (hj : j < bdim s.fts.len o.fts.len) :
    ∃ x y, s.elem? (fitIdx s.pts.len i) (fitIdx s.fts.len j) = some x ∧
      o.elem? (fitIdx o.pts.len i) (fitIdx o.fts.len j) = some y ∧
      ((stretchData f s o)[i]?).bind (·[j]?) = some (f x y) := by
  obtain ⟨r1, a1, b1, c1⟩ := bc_row hs hp.dims.1 hq.dims.1 hi
  obtain ⟨r2, a2, b2, c2⟩ := bc_row ho hp.dims.2 hq.dims.2 hi
  refine ⟨r1[j], r2[j], ?_, ?_, ?_⟩
  · rw [← c1 j hj]; exact List.getElem?_eq_getElem (by omega)
  · rw [← c2 j hj]; exact List.getElem?_eq_getElem (by omega)
  · unfold stretchData
    simp only []
    rw [List.getElem?_zipWith, a1, a2]
    simp only [Option.bind_some, List.getElem?_zipWith]
    have k1 : j < r1.length := by omega
    have k2 : j < r2.length := by omega
    rw [List.getElem?_eq_getElem k1, List.getElem?_eq_getElem k2]

theorem stretchData_shape (f : V → V → V) {s o : Obj V} (hs : s.WF) (ho : o.WF)
    (hp : Fits s.pts.len o.pts.len) (hq : Fits s.fts.len o.fts.len) :
    (stretchData f s o).length = bdim s.pts.len o.pts.len ∧
    ∀ r ∈ stretchData f s o, r.length = bdim s.fts.len o.fts.len := by
  constructor
  · unfold stretchData
    simp only [List.length_zipWith, List.length_map]
    rw [bcast_length hs.rows hp.dims.1, bcast_length ho.rows hp.dims.2, Nat.min_self]
  · intro r hr
    obtain ⟨i, hi⟩ := List.mem_iff_getElem?.1 hr
    unfold stretchData at hi
    simp only [] at hi
    rw [List.getElem?_zipWith] at hi
    have hlt : i < bdim s.pts.len o.pts.len := by
      apply Decidable.byContradiction
      intro hn
      rw [List.getElem?_eq_none (by
        rw [List.length_map, bcast_length hs.rows hp.dims.1]; omega)] at hi
      simp at hi
    obtain ⟨r1, a1, b1, _⟩ := bc_row hs hp.dims.1 hq.dims.1 hlt
    obtain ⟨r2, a2, b2, _⟩ := bc_row ho hp.dims.2 hq.dims.2 hlt
    rw [a1, a2] at hi
    simp only [Option.some.injEq] at hi
    subst hi
    rw [List.length_zipWith, b1, b2, Nat.min_self]

/-! ### Checks -/

theorem stretchNameCheck_eq {l r : AxisSt} (hl : l.Ok) (hr : r.Ok) (hlen : l.len = r.len) :
    (stretchNameCheck l r = .ok () ↔ NamesAgree l.getNames r.getNames) ∧
    (¬ NamesAgree l.getNames r.getNames → stretchNameCheck l r = .error .InvalidArgumentValue) := by
  have key := namesEqualCheck_iff hl hr
  unfold stretchNameCheck
  unfold namesEqualCheck at key
  cases h1 : l.tbl with
  | none =>
    rw [h1] at key; simp at key
    simp [key]
  | some tl =>
    cases h2 : r.tbl with
    | none =>
      rw [h1, h2] at key; simp at key
      simp [key]
    | some tr =>
      rw [h1, h2] at key
      simp only [] at key
      have e1 : tl.inv.length = l.len := (hl tl h1).length_inv
      have e2 : tr.inv.length = r.len := (hr tr h2).length_inv
      simp only []
      rw [if_neg (by rw [e1, e2]; simpa using hlen)]
      by_cases hc : (inconsistentNames tl.inv tr.inv).isEmpty = true
      · rw [if_pos hc]; exact ⟨⟨fun _ => key.1 hc, fun _ => rfl⟩, fun h => absurd (key.1 hc) h⟩
      · rw [if_neg hc]
        refine ⟨⟨fun h => (by simp at h), fun h => absurd (key.2 h) hc⟩, fun _ => rfl⟩

/-- The name check between axes of different lengths (both with created names) is an `IndexError`. -/
theorem stretchNameCheck_length {l r : AxisSt} (hl : l.Ok) (hr : r.Ok) (hlen : l.len ≠ r.len)
    (h1 : l.namesCreated = true) (h2 : r.namesCreated = true) :
    stretchNameCheck l r = .error .IndexError := by
  cases e1 : l.tbl with
  | none => simp [AxisSt.namesCreated, e1] at h1
  | some tl =>
    cases e2 : r.tbl with
    | none => simp [AxisSt.namesCreated, e2] at h2
    | some tr =>
      unfold stretchNameCheck
      rw [e1, e2]
      simp only []
      rw [if_pos (by rw [(hl tl e1).length_inv, (hr tr e2).length_inv]; exact hlen)]

private theorem finish_ok {os : Bool} {f : V → V → V} {s o : Obj V} (hs : s.WF) (ho : o.WF)
    (hp : Fits s.pts.len o.pts.len) (hq : Fits s.fts.len o.fts.len)
    {pn fn : Option (List (Option String))} {P F : AxisSt}
    (e1 : stretchNames os s.pts o.pts s.pts.len o.pts.len (max s.pts.len o.pts.len) = .ok pn)
    (e2 : stretchNames os s.fts o.fts s.fts.len o.fts.len (max s.fts.len o.fts.len) = .ok fn)
    (e3 : AxisSt.setNames ⟨bdim s.pts.len o.pts.len, none⟩ (asAssign pn) = .ok P)
    (e4 : AxisSt.setNames ⟨bdim s.fts.len o.fts.len, none⟩ (asAssign fn) = .ok F)
    (oP : P.Ok) (oF : F.Ok) (lP : P.len = bdim s.pts.len o.pts.len)
    (lF : F.len = bdim s.fts.len o.fts.len) :
    stretchFinish os f s o = .ok ⟨stretchData f s o, P, F⟩ ∧
    (⟨stretchData f s o, P, F⟩ : Obj V).WF := by
  have sh := stretchData_shape f hs ho hp hq
  refine ⟨?_, ⟨by simp only []; rw [lP]; exact sh.1, by simp only []; rw [lF]; exact sh.2, oP, oF⟩⟩
  unfold stretchFinish
  simp only [e1, e2, e3, e4, bind, Except.bind, pure, Except.pure]

/-! ### C64 -/

/-- C64. `v.stretch op X` for a single point `v` with at least two features whose point axis never
had default names generated, and an `X` with points: accepted exactly when the feature counts are
equal and the feature names agree; then every row of the result is `v` combined with the row of `X`,
the feature names are those of either side and the point names follow `stretchedNames`. -/
theorem C64_stretch_point_partial (f : V → V → V) {v X : Obj V} (hv : v.WF) (hX : X.WF)
    (h1 : v.pts.len = 1) (h2 : 2 ≤ v.fts.len) (hpl : v.pts.Plain) (hne : 0 < X.pts.len) :
    ((∃ r, v.stretchOp f X = .ok r) ↔
      (v.fts.len = X.fts.len ∧ NamesAgree v.fts.getNames X.fts.getNames)) ∧
    (∀ r, v.stretchOp f X = .ok r →
      r.WF ∧ r.pts.len = X.pts.len ∧ r.fts.len = X.fts.len ∧
      (∀ i j, i < X.pts.len → j < X.fts.len → ∃ a b, v.elem? 0 j = some a ∧
        X.elem? i j = some b ∧ r.elem? i j = some (f a b)) ∧
      r.pts.getNames = stretchedNames v.pts.onlyName X.pts.getNames ∧
      MergedNames r.fts.getNames v.fts.getNames X.fts.getNames) := by
  have hst : v.stretchable = .ok () := by
    unfold stretchable; rw [if_neg (by omega), if_neg (by omega)]
  have hck : v.stretchCheck X = if v.fts.len ≠ X.fts.len then .error .InvalidArgumentValueCombination
      else stretchNameCheck v.fts X.fts := by
    unfold stretchCheck; rw [if_neg (by omega), if_pos h1]
  by_cases hl : v.fts.len = X.fts.len
  swap
  · have : v.stretchOp f X = .error .InvalidArgumentValueCombination := by
      unfold stretchOp
      simp only [hst, hck, if_pos hl, bind, Except.bind]
    rw [this]
    refine ⟨⟨?_, fun h => absurd h.1 hl⟩, ?_⟩
    · rintro ⟨r, hr⟩; cases hr
    · intro r hr; cases hr
  rw [if_neg (by simpa using hl)] at hck
  by_cases hag : NamesAgree v.fts.getNames X.fts.getNames
  swap
  · have hc := (stretchNameCheck_eq hv.fts hX.fts hl).2 hag
    have : v.stretchOp f X = .error .InvalidArgumentValue := by
      unfold stretchOp
      simp only [hst, hck, hc, bind, Except.bind]
    rw [this]
    refine ⟨⟨?_, fun h => absurd h.2 hag⟩, ?_⟩
    · rintro ⟨r, hr⟩; cases hr
    · intro r hr; cases hr
  have hc := (stretchNameCheck_eq hv.fts hX.fts hl).1.2 hag
  obtain ⟨pn, P, p1, p2, p3, p4, p5⟩ := stretch_repeated false hv.pts hX.pts h1 rfl hne hpl
  obtain ⟨fn, F, q1, q2, q3, q4, q5⟩ := stretch_matched false hv.fts hX.fts hl rfl (by omega) hag
  have m1 : max v.pts.len X.pts.len = X.pts.len := by omega
  have m2 : max v.fts.len X.fts.len = X.fts.len := by omega
  have b1 : bdim v.pts.len X.pts.len = X.pts.len := by unfold bdim; rw [if_pos h1]
  have b2 : bdim v.fts.len X.fts.len = X.fts.len := by unfold bdim; rw [if_neg (by omega)]; exact hl
  have hp : Fits v.pts.len X.pts.len := Or.inl h1
  have hq : Fits v.fts.len X.fts.len := Or.inr (Or.inr hl)
  obtain ⟨z1, z2⟩ := finish_ok (os := false) (f := f) hv hX hp hq (by rw [m1, h1]; exact p1)
    (by rw [m2, hl]; exact q1) (by rw [b1]; exact p2) (by rw [b2]; exact q2) p3 q3
    (by rw [b1]; exact p4) (by rw [b2]; exact q4)
  have : v.stretchOp f X = .ok ⟨stretchData f v X, P, F⟩ := by
    unfold stretchOp
    simp only [hst, hck, hc, z1, bind, Except.bind]
  rw [this]
  refine ⟨⟨fun _ => ⟨hl, hag⟩, fun _ => ⟨_, rfl⟩⟩, ?_⟩
  intro r hr
  simp only [Except.ok.injEq] at hr
  subst hr
  refine ⟨z2, p4, q4, ?_, p5, q5⟩
  intro i j hi hj
  obtain ⟨x, y, e1, e2, e3⟩ := stretchData_elem f hv hX hp hq (i := i) (j := j)
    (by rw [b1]; exact hi) (by rw [b2]; exact hj)
  refine ⟨x, y, ?_, ?_, e3⟩
  · rw [← e1]; simp only [fitIdx, if_pos h1]; rw [if_neg (by omega)]
  · rw [← e2]
    have : fitIdx X.pts.len i = i := by unfold fitIdx; split <;> omega
    rw [this]; simp only [fitIdx]; rw [if_neg (by omega)]

/-- C64. The same for a single feature `v` with at least two points. -/
theorem C64_stretch_feature_partial (f : V → V → V) {v X : Obj V} (hv : v.WF) (hX : X.WF)
    (h1 : v.fts.len = 1) (h2 : 2 ≤ v.pts.len) (hpl : v.fts.Plain) (hne : 0 < X.fts.len) :
    ((∃ r, v.stretchOp f X = .ok r) ↔
      (v.pts.len = X.pts.len ∧ NamesAgree v.pts.getNames X.pts.getNames)) ∧
    (∀ r, v.stretchOp f X = .ok r →
      r.WF ∧ r.pts.len = X.pts.len ∧ r.fts.len = X.fts.len ∧
      (∀ i j, i < X.pts.len → j < X.fts.len → ∃ a b, v.elem? i 0 = some a ∧
        X.elem? i j = some b ∧ r.elem? i j = some (f a b)) ∧
      MergedNames r.pts.getNames v.pts.getNames X.pts.getNames ∧
      r.fts.getNames = stretchedNames v.fts.onlyName X.fts.getNames) := by
  have hst : v.stretchable = .ok () := by
    unfold stretchable; rw [if_neg (by omega), if_neg (by omega)]
  have hck : v.stretchCheck X = if v.pts.len ≠ X.pts.len then .error .InvalidArgumentValueCombination
      else stretchNameCheck v.pts X.pts := by
    unfold stretchCheck; rw [if_neg (by omega), if_neg (by omega)]
  by_cases hl : v.pts.len = X.pts.len
  swap
  · have : v.stretchOp f X = .error .InvalidArgumentValueCombination := by
      unfold stretchOp
      simp only [hst, hck, if_pos hl, bind, Except.bind]
    rw [this]
    refine ⟨⟨?_, fun h => absurd h.1 hl⟩, ?_⟩
    · rintro ⟨r, hr⟩; cases hr
    · intro r hr; cases hr
  rw [if_neg (by simpa using hl)] at hck
  by_cases hag : NamesAgree v.pts.getNames X.pts.getNames
  swap
  · have hc := (stretchNameCheck_eq hv.pts hX.pts hl).2 hag
    have : v.stretchOp f X = .error .InvalidArgumentValue := by
      unfold stretchOp
      simp only [hst, hck, hc, bind, Except.bind]
    rw [this]
    refine ⟨⟨?_, fun h => absurd h.2 hag⟩, ?_⟩
    · rintro ⟨r, hr⟩; cases hr
    · intro r hr; cases hr
  have hc := (stretchNameCheck_eq hv.pts hX.pts hl).1.2 hag
  obtain ⟨fn, F, q1, q2, q3, q4, q5⟩ := stretch_repeated false hv.fts hX.fts h1 rfl hne hpl
  obtain ⟨pn, P, p1, p2, p3, p4, p5⟩ := stretch_matched false hv.pts hX.pts hl rfl (by omega) hag
  have m1 : max v.pts.len X.pts.len = X.pts.len := by omega
  have m2 : max v.fts.len X.fts.len = X.fts.len := by omega
  have b1 : bdim v.pts.len X.pts.len = X.pts.len := by unfold bdim; rw [if_neg (by omega)]; exact hl
  have b2 : bdim v.fts.len X.fts.len = X.fts.len := by unfold bdim; rw [if_pos h1]
  have hp : Fits v.pts.len X.pts.len := Or.inr (Or.inr hl)
  have hq : Fits v.fts.len X.fts.len := Or.inl h1
  obtain ⟨z1, z2⟩ := finish_ok (os := false) (f := f) hv hX hp hq (by rw [m1, hl]; exact p1)
    (by rw [m2, h1]; exact q1) (by rw [b1]; exact p2) (by rw [b2]; exact q2) p3 q3
    (by rw [b1]; exact p4) (by rw [b2]; exact q4)
  have : v.stretchOp f X = .ok ⟨stretchData f v X, P, F⟩ := by
    unfold stretchOp
    simp only [hst, hck, hc, z1, bind, Except.bind]
  rw [this]
  refine ⟨⟨fun _ => ⟨hl, hag⟩, fun _ => ⟨_, rfl⟩⟩, ?_⟩
  intro r hr
  simp only [Except.ok.injEq] at hr
  subst hr
  refine ⟨z2, p4, q4, ?_, p5, q5⟩
  intro i j hi hj
  obtain ⟨x, y, e1, e2, e3⟩ := stretchData_elem f hv hX hp hq (i := i) (j := j)
    (by rw [b1]; exact hi) (by rw [b2]; exact hj)
  refine ⟨x, y, ?_, ?_, e3⟩
  · rw [← e1]
    have a1 : fitIdx v.pts.len i = i := by unfold fitIdx; rw [if_neg (by omega)]
    have a2 : fitIdx v.fts.len j = 0 := by unfold fitIdx; rw [if_pos h1]
    rw [a1, a2]
  · rw [← e2]
    have a1 : fitIdx X.pts.len i = i := by unfold fitIdx; split <;> omega
    have a2 : fitIdx X.fts.len j = j := by unfold fitIdx; split <;> omega
    rw [a1, a2]

/-- C64. Two stretched objects, a single point `v` with at least two features and a single feature
`w` with at least two points (no default names generated on the repeated axes): the result pairs
every point of `w` with every feature of `v` – `f v w` when `v` is on the left, and the same table
with `f w v` when `w` is; the names of the points come from `w`, those of the features from `v`. -/
theorem C64_stretch_both_partial (f : V → V → V) {v w : Obj V} (hv : v.WF) (hw : w.WF)
    (h1 : v.pts.len = 1) (h2 : 2 ≤ v.fts.len) (h3 : w.fts.len = 1) (h4 : 2 ≤ w.pts.len)
    (hp1 : v.pts.Plain) (hp2 : w.fts.Plain) :
    (∃ r, v.stretchBoth f w = .ok r ∧ r.WF ∧ r.pts.len = w.pts.len ∧ r.fts.len = v.fts.len ∧
      (∀ i j, i < w.pts.len → j < v.fts.len → ∃ a b, v.elem? 0 j = some a ∧
        w.elem? i 0 = some b ∧ r.elem? i j = some (f a b)) ∧
      r.pts.getNames = stretchedNames v.pts.onlyName w.pts.getNames ∧
      r.fts.getNames = stretchedNames w.fts.onlyName v.fts.getNames) ∧
    (∃ r, w.stretchBoth f v = .ok r ∧ r.WF ∧ r.pts.len = w.pts.len ∧ r.fts.len = v.fts.len ∧
      (∀ i j, i < w.pts.len → j < v.fts.len → ∃ a b, v.elem? 0 j = some a ∧
        w.elem? i 0 = some b ∧ r.elem? i j = some (f b a)) ∧
      r.pts.getNames = stretchedNames v.pts.onlyName w.pts.getNames ∧
      r.fts.getNames = stretchedNames w.fts.onlyName v.fts.getNames) := by
  have sv : v.stretchable = .ok () := by
    unfold stretchable; rw [if_neg (by omega), if_neg (by omega)]
  have sw : w.stretchable = .ok () := by
    unfold stretchable; rw [if_neg (by omega), if_neg (by omega)]
  have fv : ∀ i, fitIdx v.pts.len i = 0 := fun i => by unfold fitIdx; rw [if_pos h1]
  have fw : ∀ i, fitIdx w.fts.len i = 0 := fun i => by unfold fitIdx; rw [if_pos h3]
  have gv : ∀ i, fitIdx v.fts.len i = i := fun i => by unfold fitIdx; rw [if_neg (by omega)]
  have gw : ∀ i, fitIdx w.pts.len i = i := fun i => by unfold fitIdx; rw [if_neg (by omega)]
  constructor
  · have hck : v.stretchBothCheck w = .ok () := by
      unfold stretchBothCheck; rw [if_pos (Or.inl ⟨h1, h3⟩)]
    obtain ⟨pn, P, p1, p2, p3, p4, p5⟩ := stretch_repeated true hv.pts hw.pts h1 rfl (by omega) hp1
    obtain ⟨fn, F, q1, q2, q3, q4, q5⟩ := stretch_repeated_other hv.fts hw.fts rfl h3 h2 hp2
    have m1 : max v.pts.len w.pts.len = w.pts.len := by omega
    have m2 : max v.fts.len w.fts.len = v.fts.len := by omega
    have b1 : bdim v.pts.len w.pts.len = w.pts.len := by unfold bdim; rw [if_pos h1]
    have b2 : bdim v.fts.len w.fts.len = v.fts.len := by unfold bdim; rw [if_neg (by omega)]
    have hp : Fits v.pts.len w.pts.len := Or.inl h1
    have hq : Fits v.fts.len w.fts.len := Or.inr (Or.inl h3)
    obtain ⟨z1, z2⟩ := finish_ok (os := true) (f := f) hv hw hp hq (by rw [m1, h1]; exact p1)
      (by rw [m2, h3]; exact q1) (by rw [b1]; exact p2) (by rw [b2]; exact q2) p3 q3
      (by rw [b1]; exact p4) (by rw [b2]; exact q4)
    refine ⟨⟨stretchData f v w, P, F⟩, ?_, z2, p4, q4, ?_, p5, q5⟩
    · unfold stretchBoth
      simp only [sv, sw, hck, z1, bind, Except.bind]
    · intro i j hi hj
      obtain ⟨x, y, e1, e2, e3⟩ := stretchData_elem f hv hw hp hq (i := i) (j := j)
        (by rw [b1]; exact hi) (by rw [b2]; exact hj)
      rw [fv, gv] at e1
      rw [fw, gw] at e2
      exact ⟨x, y, e1, e2, e3⟩
  · have hck : w.stretchBothCheck v = .ok () := by
      unfold stretchBothCheck; rw [if_pos (Or.inr ⟨h3, h1⟩)]
    obtain ⟨pn, P, p1, p2, p3, p4, p5⟩ := stretch_repeated_other hw.pts hv.pts rfl h1 h4 hp1
    obtain ⟨fn, F, q1, q2, q3, q4, q5⟩ := stretch_repeated true hw.fts hv.fts h3 rfl (by omega) hp2
    have m1 : max w.pts.len v.pts.len = w.pts.len := by omega
    have m2 : max w.fts.len v.fts.len = v.fts.len := by omega
    have b1 : bdim w.pts.len v.pts.len = w.pts.len := by unfold bdim; rw [if_neg (by omega)]
    have b2 : bdim w.fts.len v.fts.len = v.fts.len := by unfold bdim; rw [if_pos h3]
    have hp : Fits w.pts.len v.pts.len := Or.inr (Or.inl h1)
    have hq : Fits w.fts.len v.fts.len := Or.inl h3
    obtain ⟨z1, z2⟩ := finish_ok (os := true) (f := f) hw hv hp hq (by rw [m1, h1]; exact p1)
      (by rw [m2, h3]; exact q1) (by rw [b1]; exact p2) (by rw [b2]; exact q2) p3 q3
      (by rw [b1]; exact p4) (by rw [b2]; exact q4)
    refine ⟨⟨stretchData f w v, P, F⟩, ?_, z2, p4, q4, ?_, p5, q5⟩
    · unfold stretchBoth
      simp only [sv, sw, hck, z1, bind, Except.bind]
    · intro i j hi hj
      obtain ⟨x, y, e1, e2, e3⟩ := stretchData_elem f hw hv hp hq (i := i) (j := j)
        (by rw [b1]; exact hi) (by rw [b2]; exact hj)
      rw [fw, gw] at e1
      rw [fv, gv] at e2
      exact ⟨y, x, e2, e1, e3⟩

/-- C64. A 1×1 object that never had names against a non-empty `X`: accepted exactly when `X` is
one-dimensional; every element of `X` is combined with the value and the names are those of `X`. -/
theorem C64_stretch_single_partial (f : V → V → V) {v X : Obj V} (hv : v.WF) (hX : X.WF)
    (h1 : v.pts.len = 1) (h2 : v.fts.len = 1) (n1 : v.pts.namesCreated = false)
    (n2 : v.fts.namesCreated = false) (hp : 0 < X.pts.len) (hf : 0 < X.fts.len) :
    ((∃ r, v.stretchOp f X = .ok r) ↔ (X.pts.len = 1 ∨ X.fts.len = 1)) ∧
    (∀ r, v.stretchOp f X = .ok r →
      r.WF ∧ r.pts.len = X.pts.len ∧ r.fts.len = X.fts.len ∧
      (∀ i j, i < X.pts.len → j < X.fts.len → ∃ a b, v.elem? 0 0 = some a ∧
        X.elem? i j = some b ∧ r.elem? i j = some (f a b)) ∧
      r.pts.getNames = X.pts.getNames ∧ r.fts.getNames = X.fts.getNames) := by
  have t1 : v.pts.tbl = none := by
    cases h : v.pts.tbl with
    | none => rfl
    | some t => simp [AxisSt.namesCreated, h] at n1
  have t2 : v.fts.tbl = none := by
    cases h : v.fts.tbl with
    | none => rfl
    | some t => simp [AxisSt.namesCreated, h] at n2
  have hst : v.stretchable = .ok () := by
    unfold stretchable; rw [if_neg (by omega), if_neg (by omega)]
  have c1 : stretchNameCheck v.pts X.pts = .ok () := by unfold stretchNameCheck; rw [t1]
  have c2 : stretchNameCheck v.fts X.fts = .ok () := by unfold stretchNameCheck; rw [t2]
  by_cases hone : X.pts.len = 1 ∨ X.fts.len = 1
  swap
  · have hck : v.stretchCheck X = .error .InvalidArgumentValueCombination := by
      unfold stretchCheck; rw [if_pos ⟨h1, h2⟩, if_pos hone]
    have : v.stretchOp f X = .error .InvalidArgumentValueCombination := by
      unfold stretchOp
      simp only [hst, hck, bind, Except.bind]
    rw [this]
    refine ⟨⟨?_, fun h => absurd h hone⟩, ?_⟩
    · rintro ⟨r, hr⟩; cases hr
    · intro r hr; cases hr
  have hck : v.stretchCheck X = .ok () := by
    unfold stretchCheck; rw [if_pos ⟨h1, h2⟩, if_neg (not_not.2 hone)]
    split
    · exact c1
    · exact c2
  obtain ⟨pn, P, p1, p2, p3, p4, p5⟩ := stretch_repeated false hv.pts hX.pts h1 rfl hp (Or.inl t1)
  obtain ⟨fn, F, q1, q2, q3, q4, q5⟩ := stretch_repeated false hv.fts hX.fts h2 rfl hf (Or.inl t2)
  have o1 : v.pts.onlyName = none := by simp [AxisSt.onlyName, AxisSt.getNames, t1, h1]
  have o2 : v.fts.onlyName = none := by simp [AxisSt.onlyName, AxisSt.getNames, t2, h2]
  rw [o1] at p5
  rw [o2] at q5
  have m1 : max v.pts.len X.pts.len = X.pts.len := by omega
  have m2 : max v.fts.len X.fts.len = X.fts.len := by omega
  have b1 : bdim v.pts.len X.pts.len = X.pts.len := by unfold bdim; rw [if_pos h1]
  have b2 : bdim v.fts.len X.fts.len = X.fts.len := by unfold bdim; rw [if_pos h2]
  obtain ⟨z1, z2⟩ := finish_ok (os := false) (f := f) hv hX (Or.inl h1) (Or.inl h2)
    (by rw [m1, h1]; exact p1) (by rw [m2, h2]; exact q1) (by rw [b1]; exact p2)
    (by rw [b2]; exact q2) p3 q3 (by rw [b1]; exact p4) (by rw [b2]; exact q4)
  have : v.stretchOp f X = .ok ⟨stretchData f v X, P, F⟩ := by
    unfold stretchOp
    simp only [hst, hck, z1, bind, Except.bind]
  rw [this]
  refine ⟨⟨fun _ => hone, fun _ => ⟨_, rfl⟩⟩, ?_⟩
  intro r hr
  simp only [Except.ok.injEq] at hr
  subst hr
  refine ⟨z2, p4, q4, ?_, p5, q5⟩
  intro i j hi hj
  obtain ⟨x, y, e1, e2, e3⟩ := stretchData_elem f hv hX (Or.inl h1) (Or.inl h2) (i := i) (j := j)
    (by rw [b1]; exact hi) (by rw [b2]; exact hj)
  refine ⟨x, y, ?_, ?_, e3⟩
  · rw [← e1]; simp only [fitIdx, if_pos h1, if_pos h2]
  · rw [← e2]
    have a1 : fitIdx X.pts.len i = i := by unfold fitIdx; split <;> omega
    have a2 : fitIdx X.fts.len j = j := by unfold fitIdx; split <;> omega
    rw [a1, a2]

/-- C64. Only non-empty one-dimensional objects can be stretched; two stretches must be a single
point and a single feature; a single point (feature) with at least two entries is refused against
an object with another number of features (points). -/
theorem C64_stretch_refused (f : V → V → V) (v X : Obj V) :
    (((1 < v.pts.len ∧ 1 < v.fts.len) ∨ v.pts.len = 0 ∨ v.fts.len = 0) →
      v.stretchOp f X = .error .ImproperObjectAction ∧
      v.stretchBoth f X = .error .ImproperObjectAction ∧
      v.stretchLogical f X = .error .ImproperObjectAction) ∧
    (¬ (v.pts.len = 1 ∧ X.fts.len = 1) → ¬ (v.fts.len = 1 ∧ X.pts.len = 1) →
      v.stretchBoth f X = .error .ImproperObjectAction) ∧
    (v.pts.len = 1 → 2 ≤ v.fts.len → v.fts.len ≠ X.fts.len →
      v.stretchOp f X = .error .InvalidArgumentValueCombination) ∧
    (v.fts.len = 1 → 2 ≤ v.pts.len → v.pts.len ≠ X.pts.len →
      v.stretchOp f X = .error .InvalidArgumentValueCombination) := by
  have hst : ((1 < v.pts.len ∧ 1 < v.fts.len) ∨ v.pts.len = 0 ∨ v.fts.len = 0) →
      v.stretchable = .error .ImproperObjectAction := by
    intro h
    unfold stretchable
    by_cases h1 : 1 < v.pts.len ∧ 1 < v.fts.len
    · rw [if_pos h1]
    · rw [if_neg h1, if_pos (by omega)]
  have hall : ∀ w : Obj V, w.stretchable = .ok () ∨ w.stretchable = .error .ImproperObjectAction := by
    intro w; unfold stretchable
    split
    · exact Or.inr rfl
    · split
      · exact Or.inr rfl
      · exact Or.inl rfl
  refine ⟨?_, ?_, ?_, ?_⟩
  · intro h
    have := hst h
    refine ⟨?_, ?_, ?_⟩ <;>
      simp only [stretchOp, stretchBoth, stretchLogical, this, bind, Except.bind]
  · intro h1 h2
    have hck : v.stretchBothCheck X = .error .ImproperObjectAction := by
      unfold stretchBothCheck; rw [if_neg (by rintro (h | h) <;> contradiction)]
    unfold stretchBoth
    rcases hall v with e1 | e1 <;> rcases hall X with e2 | e2 <;>
      simp only [e1, e2, hck, bind, Except.bind]
  · intro h1 h2 h3
    have e1 : v.stretchable = .ok () := by
      unfold stretchable; rw [if_neg (by omega), if_neg (by omega)]
    have e2 : v.stretchCheck X = .error .InvalidArgumentValueCombination := by
      unfold stretchCheck; rw [if_neg (by omega), if_pos h1, if_pos h3]
    unfold stretchOp
    simp only [e1, e2, bind, Except.bind]
  · intro h1 h2 h3
    have e1 : v.stretchable = .ok () := by
      unfold stretchable; rw [if_neg (by omega), if_neg (by omega)]
    have e2 : v.stretchCheck X = .error .InvalidArgumentValueCombination := by
      unfold stretchCheck; rw [if_neg (by omega), if_neg (by omega), if_pos h3]
    unfold stretchOp
    simp only [e1, e2, bind, Except.bind]

/-! ### Where the property fails -/

private theorem stretch_touched {s o : AxisSt} {n : Nat} (hs : s.Ok) (ls : s.len = 1)
    (hc : s.namesCreated = true) (hd : ∀ x ∈ s.getNames, x = none) (ho : o.tbl = none) (hn : 2 ≤ n) :
    ∃ names, stretchNames false s o 1 n n = .ok names ∧
      AxisSt.setNames ⟨n, none⟩ (asAssign names) = .error .InvalidArgumentValue := by
  cases h1 : s.tbl with
  | none => simp [AxisSt.namesCreated, h1] at hc
  | some ts =>
    have es := getNamesNoGen_some h1
    have eo := getNamesNoGen_none ho
    have gs := hs.length_getNames
    refine ⟨some s.getNames, ?_, ?_⟩
    · have sd := hs.allDefault_iff.2 hd
      have tS := truthy_some (l := s.getNames) (by omega)
      simp [stretchNames, es, eo, sd, tS, truthy_none]
    · simp only [asAssign, setNames_list_eq]
      rw [if_neg (by rintro ⟨h, _⟩; omega)]

/-- C64, violated. After the (default) point names of a single point were merely read, stretching
it against any object with at least two points whose point names were never generated is refused. -/
theorem C64_read_names_violation (f : V → V → V) {v X : Obj V} (hv : v.WF) (hX : X.WF)
    (h1 : v.pts.len = 1) (h2 : 2 ≤ v.fts.len) (hl : v.fts.len = X.fts.len)
    (hag : NamesAgree v.fts.getNames X.fts.getNames) (hc : v.pts.namesCreated = true)
    (hd : ∀ x ∈ v.pts.getNames, x = none) (hX0 : X.pts.tbl = none) (hX2 : 2 ≤ X.pts.len) :
    v.stretchOp f X = .error .InvalidArgumentValue := by
  have hst : v.stretchable = .ok () := by
    unfold stretchable; rw [if_neg (by omega), if_neg (by omega)]
  have hck : v.stretchCheck X = .ok () := by
    unfold stretchCheck; rw [if_neg (by omega), if_pos h1, if_neg (by simpa using hl)]
    exact (stretchNameCheck_eq hv.fts hX.fts hl).1.2 hag
  obtain ⟨pn, p1, p2⟩ := stretch_touched hv.pts h1 hc hd hX0 hX2
  obtain ⟨fn, F, q1, q2, _⟩ := stretch_matched false hv.fts hX.fts hl rfl (by omega) hag
  have m1 : max v.pts.len X.pts.len = X.pts.len := by omega
  have m2 : max v.fts.len X.fts.len = X.fts.len := by omega
  have b1 : bdim v.pts.len X.pts.len = X.pts.len := by unfold bdim; rw [if_pos h1]
  have p1' : stretchNames false v.pts X.pts v.pts.len X.pts.len (max v.pts.len X.pts.len) = .ok pn := by
    rw [m1, h1]; exact p1
  have q1' : stretchNames false v.fts X.fts v.fts.len X.fts.len (max v.fts.len X.fts.len) = .ok fn := by
    rw [m2, hl]; exact q1
  unfold stretchOp stretchFinish
  simp only [hst, hck, p1', q1', b1, p2, bind, Except.bind]

/-- C64, violated. A 1×1 object with names is refused with `IndexError` against every longer
single feature (point) that has names on its longer axis, although 1×1 objects without names are
accepted. -/
theorem C64_single_named_violation (f : V → V → V) {v X : Obj V} (hv : v.WF) (hX : X.WF)
    (h1 : v.pts.len = 1) (h2 : v.fts.len = 1) :
    (X.fts.len = 1 → 2 ≤ X.pts.len → v.pts.namesCreated = true → X.pts.namesCreated = true →
      v.stretchOp f X = .error .IndexError) ∧
    (X.pts.len = 1 → 2 ≤ X.fts.len → v.fts.namesCreated = true → X.fts.namesCreated = true →
      v.stretchOp f X = .error .IndexError) := by
  have hst : v.stretchable = .ok () := by
    unfold stretchable; rw [if_neg (by omega), if_neg (by omega)]
  constructor
  · intro a b c d
    have hck : v.stretchCheck X = .error .IndexError := by
      unfold stretchCheck
      rw [if_pos ⟨h1, h2⟩, if_neg (by omega), if_pos (by omega)]
      exact stretchNameCheck_length hv.pts hX.pts (by omega) c d
    unfold stretchOp
    simp only [hst, hck, bind, Except.bind]
  · intro a b c d
    have hck : v.stretchCheck X = .error .IndexError := by
      unfold stretchCheck
      rw [if_pos ⟨h1, h2⟩, if_neg (by omega), if_neg (by omega)]
      exact stretchNameCheck_length hv.fts hX.fts (by omega) c d
    unfold stretchOp
    simp only [hst, hck, bind, Except.bind]

/-- C64, violated. Logical operators with a stretched operand drop every name: whenever
`v.stretch & X` succeeds, no point or feature of the result has a name. -/
theorem C64_logical_names_violation (f : V → V → V) {v X r : Obj V}
    (h : v.stretchLogical f X = .ok r) :
    (∀ x ∈ r.pts.getNames, x = none) ∧ (∀ x ∈ r.fts.getNames, x = none) := by
  unfold stretchLogical at h
  cases e1 : v.stretchable with
  | error e => simp only [e1, bind, Except.bind] at h; cases h
  | ok _ =>
    cases e2 : v.stretchCheck X with
    | error e => simp only [e1, e2, bind, Except.bind] at h; cases h
    | ok _ =>
      simp only [e1, e2, bind, Except.bind, pure, Except.pure, Except.ok.injEq] at h
      subst h
      exact ⟨default_of_none rfl, default_of_none rfl⟩

/-! ### The hypotheses are met -/

/-- A named point against a table without point names. -/
example :
    (⟨[[1, 2]], ⟨1, some ⟨[("v", 0)], [some "v"]⟩⟩, ⟨2, some ⟨[("a", 0), ("b", 1)], [some "a", some "b"]⟩⟩⟩ : Obj Int).stretchOp
      (· + ·) ⟨[[10, 20], [30, 40]], ⟨2, none⟩, ⟨2, none⟩⟩ =
    .ok ⟨[[11, 22], [31, 42]], ⟨2, some ⟨[("v_1", 0), ("v_2", 1)], [some "v_1", some "v_2"]⟩⟩,
      ⟨2, some ⟨[("a", 0), ("b", 1)], [some "a", some "b"]⟩⟩⟩ := by decide +kernel

/-- A feature of two points. -/
example :
    (⟨[[1], [2]], ⟨2, none⟩, ⟨1, some ⟨[("v", 0)], [some "v"]⟩⟩⟩ : Obj Int).stretchOp
      (· - ·) ⟨[[10, 20], [30, 40]], ⟨2, none⟩, ⟨2, some ⟨[("a", 0)], [some "a", none]⟩⟩⟩ =
    .ok ⟨[[-9, -19], [-28, -38]], ⟨2, none⟩, ⟨2, none⟩⟩ := by decide +kernel

/-- Two stretches. -/
example :
    (⟨[[1, 2]], ⟨1, none⟩, ⟨2, some ⟨[("a", 0), ("b", 1)], [some "a", some "b"]⟩⟩⟩ : Obj Int).stretchBoth
      (· - ·) ⟨[[10], [20]], ⟨2, none⟩, ⟨1, some ⟨[("w", 0)], [some "w"]⟩⟩⟩ =
    .ok ⟨[[-9, -8], [-19, -18]], ⟨2, none⟩, ⟨2, none⟩⟩ := by decide +kernel

/-- C64, violated. Two stretches, both with (default) feature names that were merely read: a
`TypeError`; without reading the names the operation succeeds. -/
theorem C64_read_names_both_violation :
    (⟨[[1, 2]], ⟨1, none⟩, ⟨2, some (defaultTable 2)⟩⟩ : Obj Int).stretchBoth
      (· - ·) ⟨[[10], [20]], ⟨2, none⟩, ⟨1, some (defaultTable 1)⟩⟩ = .error .TypeError ∧
    (⟨[[1, 2]], ⟨1, none⟩, ⟨2, none⟩⟩ : Obj Int).stretchBoth
      (· - ·) ⟨[[10], [20]], ⟨2, none⟩, ⟨1, none⟩⟩ =
      .ok ⟨[[-9, -8], [-19, -18]], ⟨2, none⟩, ⟨2, none⟩⟩ := by decide +kernel

/-- C64, violated. The names of a 1×1 object are compared along the wrong axis: a feature name that
contradicts the other object's is not reported but silently kept. -/
theorem C64_single_conflict_violation :
    (⟨[[1]], ⟨1, none⟩, ⟨1, some ⟨[("a", 0)], [some "a"]⟩⟩⟩ : Obj Int).stretchOp
      (· + ·) ⟨[[10], [20]], ⟨2, none⟩, ⟨1, some ⟨[("b", 0)], [some "b"]⟩⟩⟩ =
    .ok ⟨[[11], [21]], ⟨2, none⟩, ⟨1, some ⟨[("a", 0)], [some "a"]⟩⟩⟩ := by decide +kernel

end Nimble
