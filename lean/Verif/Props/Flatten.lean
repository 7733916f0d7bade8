import Verif.Model.Flatten
import Verif.Props.History

/-!
# C14: `flatten` and `unflatten`
-/

namespace Nimble

/-! ## Specification -/

/-- The position of element (i, j) of an n by m object in the flattened object. -/
def flatPos (order : Order) (n m i j : Nat) : Nat :=
  match order with
  | .point => i * m + j
  | .feature => j * n + i

/-- The name does not contain the separator ' | '. -/
def NoSep (s : String) : Prop := ¬ [' ', '|', ' '] <:+: s.toList

/-- Every name is given, contains no separator and does not look like a generated one. -/
def AllNamed (pre : String) (names : List (Option String)) : Prop :=
  ∀ x ∈ names, ∃ s, x = some s ∧ NoSep s ∧ ¬ pre.toList <+: s.toList

/-- No name is given. -/
def NoneNamed (names : List (Option String)) : Prop := ∀ x ∈ names, x = none

/-- No name ends in ' |'. -/
def NoTrail (names : List (Option String)) : Prop :=
  ∀ s, some s ∈ names → ¬ [' ', '|'] <:+ s.toList

/-! ## Lists -/

theorem flatten_uniform {V : Type} {m : Nat} (L : List (List V)) (h : ∀ r ∈ L, r.length = m) :
    L.flatten.length = L.length * m ∧
    ∀ i j : Nat, j < m → L.flatten[i * m + j]? = (L[i]?).bind (·[j]?) := by
  induction L with
  | nil => simp
  | cons r L ih =>
    have hr : r.length = m := h r (by simp)
    obtain ⟨h1, h2⟩ := ih (fun q hq => h q (by simp [hq]))
    refine ⟨by simp [h1, hr, Nat.add_mul, Nat.add_comm], ?_⟩
    intro i j hj
    rw [List.flatten_cons]
    cases i with
    | zero =>
      rw [Nat.zero_mul, Nat.zero_add, List.getElem?_append_left (by omega)]
      rfl
    | succ i =>
      have : (i + 1) * m + j = r.length + (i * m + j) := by rw [hr, Nat.add_mul]; omega
      rw [this, List.getElem?_append_right (by omega), Nat.add_sub_cancel_left, h2 i j hj]
      rfl

theorem filterMap_total {A V : Type} {f : A → Option V} (l : List A)
    (h : ∀ k ∈ l, (f k).isSome) :
    (l.filterMap f).length = l.length ∧ ∀ j : Nat, (l.filterMap f)[j]? = (l[j]?).bind f := by
  induction l with
  | nil => simp
  | cons a l ih =>
    obtain ⟨h1, h2⟩ := ih (fun k hk => h k (by simp [hk]))
    obtain ⟨v, hv⟩ := Option.isSome_iff_exists.1 (h a (by simp))
    rw [List.filterMap_cons_some hv]
    refine ⟨by simp [h1], fun j => ?_⟩
    cases j with
    | zero => simp [hv]
    | succ j => simpa using h2 j

namespace Obj
variable {V : Type}

theorem flatData_spec {o : Obj V} (h : o.WF) (order : Order) :
    (o.flatData order).length = o.pts.len * o.fts.len ∧
    ∀ i j : Nat, i < o.pts.len → j < o.fts.len →
      (o.flatData order)[flatPos order o.pts.len o.fts.len i j]? = o.elem? i j := by
  cases order with
  | point =>
    obtain ⟨h1, h2⟩ := flatten_uniform o.data h.cols
    exact ⟨by rw [← h.rows]; exact h1, fun i j _ hj => h2 i j hj⟩
  | feature =>
    have hu : ∀ r ∈ transposeData o.fts.len o.data, r.length = o.pts.len := by
      intro q hq
      simp only [transposeData, List.mem_map, List.mem_range] at hq
      obtain ⟨j, hj, rfl⟩ := hq
      rw [length_filterMap_col (h.col_bound hj), h.rows]
    obtain ⟨h1, h2⟩ := flatten_uniform _ hu
    have he : o.flatData .feature = (transposeData o.fts.len o.data).flatten := by
      simp only [flatData, transposeData, List.flatMap_def]
    rw [he]
    refine ⟨by rw [h1]; simp [transposeData, Nat.mul_comm], fun i j hi hj => ?_⟩
    show (transposeData o.fts.len o.data).flatten[j * o.pts.len + i]? = _
    rw [h2 j i hi]
    exact elem_transpose (r := ⟨transposeData o.fts.len o.data, o.fts, o.pts⟩) h rfl i j hi hj

theorem stride_spec {n m : Nat} {l : List V} (hl : l.length = n * m) {i : Nat} (hi : i < n) :
    (stride l i n).length = m ∧ ∀ j : Nat, j < m → (stride l i n)[j]? = l[j * n + i]? := by
  have hc : (l.length - i + n - 1) / n = m := by
    cases m with
    | zero =>
      simp only [Nat.mul_zero] at hl
      rw [hl, Nat.div_eq_of_lt (by omega)]
    | succ m =>
      have h0 : n * (m + 1) = n * m + n := Nat.mul_succ n m
      have : l.length - i + n - 1 = (n - 1 - i) + n * (m + 1) := by rw [hl]; omega
      rw [this, Nat.add_mul_div_left _ _ (by omega), Nat.div_eq_of_lt (by omega), Nat.zero_add]
  have hs : ∀ k ∈ List.range m, (l[i + k * n]?).isSome := by
    intro k hk
    have hk := List.mem_range.1 hk
    have : n * (k + 1) ≤ n * m := Nat.mul_le_mul_left n hk
    have h0 : n * (k + 1) = n * k + n := Nat.mul_succ n k
    have h1 : k * n = n * k := Nat.mul_comm _ _
    rw [List.getElem?_eq_getElem (by omega)]
    rfl
  obtain ⟨h1, h2⟩ := filterMap_total (f := fun k => l[i + k * n]?) (List.range m) hs
  unfold stride
  rw [hc]
  refine ⟨by rw [h1]; simp, fun j hj => ?_⟩
  rw [h2, List.getElem?_range hj]
  simp only [Option.bind_some]
  rw [Nat.add_comm]

theorem unflatData_spec (order : Order) {n m : Nat} {flat : List V} (hl : flat.length = n * m) :
    (unflatData order n m flat).length = n ∧
    (∀ r ∈ unflatData order n m flat, r.length = m) ∧
    ∀ i j : Nat, i < n → j < m →
      ((unflatData order n m flat)[i]?).bind (·[j]?) = flat[flatPos order n m i j]? := by
  cases order with
  | point =>
    refine ⟨by simp [unflatData], ?_, ?_⟩
    · intro r hr
      simp only [unflatData, List.mem_map, List.mem_range] at hr
      obtain ⟨i, hi, rfl⟩ := hr
      have : (i + 1) * m ≤ n * m := Nat.mul_le_mul_right m hi
      have h0 : (i + 1) * m = i * m + m := Nat.succ_mul i m
      simp only [List.length_take, List.length_drop]
      omega
    · intro i j hi hj
      simp only [unflatData, List.getElem?_map, List.getElem?_range hi, Option.map_some,
        Option.bind_some, flatPos]
      rw [List.getElem?_take_of_lt hj, List.getElem?_drop]
  | feature =>
    refine ⟨by simp [unflatData], ?_, ?_⟩
    · intro r hr
      simp only [unflatData, List.mem_map, List.mem_range] at hr
      obtain ⟨i, hi, rfl⟩ := hr
      exact (stride_spec hl hi).1
    · intro i j hi hj
      simp only [unflatData, List.getElem?_map, List.getElem?_range hi, Option.map_some,
        Option.bind_some, flatPos]
      exact (stride_spec hl hi).2 j hj

end Obj

theorem nodup_inj {A : Type} {l : List A} (h : l.Nodup) {i j : Nat} (hi : i < l.length)
    (e : l[i]? = l[j]?) : i = j := by
  rw [List.nodup_iff_getElem?_ne_getElem?] at h
  have hj : j < l.length := by
    by_contra hc
    rw [List.getElem?_eq_getElem hi, List.getElem?_eq_none (by omega)] at e
    simp at e
  rcases Nat.lt_trichotomy i j with hlt | heq | hgt
  · exact absurd e (h i j hlt hj)
  · exact heq
  · exact absurd e.symm (h j i hgt hi)

/-! ## Names -/

theorem splitSep_cons {c : Char} {rest acc : List Char} (h : ¬ [' ', '|', ' '] <+: c :: rest) :
    splitSep (c :: rest) acc = splitSep rest (c :: acc) := by
  rw [splitSep.eq_def]
  split
  · rename_i heq
    exact absurd (by rw [heq]; exact ⟨_, rfl⟩) h
  · rename_i heq
    cases heq
    rfl
  · rename_i heq; cases heq

theorem splitSep_noSep (f acc : List Char) (h : ¬ [' ', '|', ' '] <:+: f) :
    splitSep f acc = [acc.reverse ++ f] := by
  induction f generalizing acc with
  | nil => simp [splitSep]
  | cons c f ih =>
    rw [splitSep_cons (fun hp => h hp.isInfix),
      ih _ (fun hi => h (hi.trans (List.suffix_cons c f).isInfix))]
    simp

theorem splitSep_join (p f acc : List Char) (hp : ¬ [' ', '|', ' '] <:+: p)
    (ht : ¬ [' ', '|'] <:+ p) (hf : ¬ [' ', '|', ' '] <:+: f) :
    splitSep (p ++ [' ', '|', ' '] ++ f) acc = [acc.reverse ++ p, f] := by
  induction p generalizing acc with
  | nil => simp [splitSep, splitSep_noSep f [] hf]
  | cons c p ih =>
    have hnp : ¬ [' ', '|', ' '] <+: c :: (p ++ [' ', '|', ' '] ++ f) := by
      rintro ⟨t, e⟩
      match p, e with
      | [], e => simp at e
      | [d], e =>
        simp at e
        obtain ⟨rfl, rfl, -⟩ := e
        exact ht ⟨[], rfl⟩
      | d :: x :: q, e =>
        simp at e
        obtain ⟨rfl, rfl, rfl, -⟩ := e
        exact hp ⟨[], q, rfl⟩
    show splitSep (c :: (p ++ [' ', '|', ' '] ++ f)) acc = _
    rw [splitSep_cons hnp, ih _ (fun hi => hp (hi.trans (List.suffix_cons c p).isInfix))
      (fun hi => ht (hi.trans (List.suffix_cons c p)))]
    simp

theorem splitName_join {p f : String} (hp : NoSep p) (ht : ¬ [' ', '|'] <:+ p.toList)
    (hf : NoSep f) : splitName (some (joinName p f)) = some (p, f) := by
  have : (joinName p f).toList = p.toList ++ [' ', '|', ' '] ++ f.toList := by
    simp [joinName]
  simp only [splitName, this]
  rw [splitSep_join _ _ _ hp ht hf]
  simp

/-- Names are all given or none is. -/
def Uniform (pre : String) (names : List (Option String)) : Prop :=
  AllNamed pre names ∨ NoneNamed names

theorem flatLabels_getElem? (pre : String) (names : List (Option String)) (i : Nat) :
    (flatLabels pre names)[i]? = (names[i]?).map (fun x => x.getD (pre ++ toString i)) := by
  simp only [flatLabels, List.getElem?_map, List.getElem?_zipIdx, Option.map_map]
  cases names[i]? <;> simp

theorem length_flatLabels (pre : String) (names : List (Option String)) :
    (flatLabels pre names).length = names.length := by simp [flatLabels]

theorem flatLabels_named {pre : String} {names : List (Option String)} (h : AllNamed pre names) :
    (flatLabels pre names).map some = names := by
  apply List.ext_getElem?
  intro i
  rw [List.getElem?_map, flatLabels_getElem?]
  cases hx : names[i]? with
  | none => rfl
  | some x =>
    obtain ⟨s, rfl, _⟩ := h x (List.mem_of_getElem? hx)
    rfl

theorem toString_nat_chars {i : Nat} {c : Char} (h : c ∈ (toString i).toList) : c.isDigit := by
  have : (toString i : String) = Nat.repr i := rfl
  rw [this, Nat.toList_repr] at h
  exact Nat.isDigit_of_mem_toDigits (by omega) (by omega) h

theorem toString_nat_inj {i j : Nat} (h : toString i = toString j) : i = j := by
  have h' : Nat.repr i = Nat.repr j := h
  have := congrArg String.toList h'
  rw [Nat.toList_repr, Nat.toList_repr] at this
  rw [← Nat.ofDigitChars_ten_toDigits (n := i), ← Nat.ofDigitChars_ten_toDigits (n := j), this]

theorem label_unnamed {pre : String} {names : List (Option String)} (h : NoneNamed names) {i : Nat}
    {s : String} (hs : (flatLabels pre names)[i]? = some s) : s = pre ++ toString i := by
  rw [flatLabels_getElem?] at hs
  cases hx : names[i]? with
  | none => rw [hx] at hs; simp at hs
  | some x =>
    have : x = none := h x (List.mem_of_getElem? hx)
    subst this
    rw [hx] at hs
    simpa using hs.symm

/-- What is needed of a generated prefix. -/
def PlainPre (pre : String) : Prop := ∀ c ∈ pre.toList, c ≠ ' ' ∧ c ≠ '|'

theorem plain_generated {pre : String} (hp : PlainPre pre) (i : Nat) :
    ∀ c ∈ (pre ++ toString i).toList, c ≠ ' ' ∧ c ≠ '|' := by
  intro c hc
  rw [String.toList_append, List.mem_append] at hc
  rcases hc with hc | hc
  · exact hp c hc
  · have := toString_nat_chars hc
    constructor <;> (rintro rfl; revert this; decide)

theorem label_noSep {pre : String} (hp : PlainPre pre) {names : List (Option String)}
    (h : Uniform pre names) {s : String} (hs : s ∈ flatLabels pre names) : NoSep s := by
  rcases h with h | h
  · have : some s ∈ names := by
      rw [← flatLabels_named h]; exact List.mem_map_of_mem hs
    obtain ⟨t, e, h2, _⟩ := h _ this
    cases e
    exact h2
  · obtain ⟨i, hi⟩ := List.getElem?_of_mem hs
    rw [label_unnamed h hi]
    rintro hi
    exact (plain_generated hp i ' ' (hi.subset (by simp))).1 rfl

theorem label_noTrail {pre : String} (hp : PlainPre pre) {names : List (Option String)}
    (h : Uniform pre names) (ht : NoTrail names) {s : String} (hs : s ∈ flatLabels pre names) :
    ¬ [' ', '|'] <:+ s.toList := by
  rcases h with h | h
  · apply ht
    rw [← flatLabels_named h]; exact List.mem_map_of_mem hs
  · obtain ⟨i, hi⟩ := List.getElem?_of_mem hs
    rw [label_unnamed h hi]
    rintro hi
    exact (plain_generated hp i ' ' (hi.subset (by simp))).1 rfl

theorem nodup_flatLabels {pre : String} {names : List (Option String)} (h : Uniform pre names)
    (hn : names.reduceOption.Nodup) : (flatLabels pre names).Nodup := by
  rcases h with h | h
  · have h1 := flatLabels_named h
    rw [← h1] at hn
    simpa [List.reduceOption, List.filterMap_map] using hn
  · rw [List.nodup_iff_getElem?_ne_getElem?]
    intro i j hij hj hc
    have h2 := List.getElem?_eq_getElem hj
    have e1 := label_unnamed h h2
    have e2 := label_unnamed h (hc.trans h2)
    rw [e1] at e2
    have e3 : toString j = toString i := by
      have := congrArg String.toList e2
      simp only [String.toList_append, List.append_cancel_left_eq] at this
      exact String.toList_inj.1 this
    have := toString_nat_inj e3
    omega

theorem hasPrefix_iff (pre s : String) : hasPrefix pre s = true ↔ pre.toList <+: s.toList := by
  simp [hasPrefix]

theorem collect_old (pre : String) (l : List String) (acc : List (Option String))
    (h : ∀ s ∈ l, some s ∈ acc) : l.foldl (collectStep pre) acc = acc := by
  induction l with
  | nil => rfl
  | cons s l ih =>
    rw [List.foldl_cons]
    have : collectStep pre acc s = acc := by
      unfold collectStep; rw [if_pos (h s (by simp))]
    rw [this]
    exact ih (fun t ht => h t (by simp [ht]))

theorem collect_new (pre : String) (l : List String) (acc : List (Option String))
    (hn : l.Nodup) (hp : ∀ s ∈ l, hasPrefix pre s = false) (h : ∀ s ∈ l, some s ∉ acc) :
    l.foldl (collectStep pre) acc = acc ++ l.map some := by
  induction l generalizing acc with
  | nil => simp
  | cons s l ih =>
    rw [List.nodup_cons] at hn
    rw [List.foldl_cons]
    have : collectStep pre acc s = acc ++ [some s] := by
      unfold collectStep
      rw [if_neg (h s (by simp)), if_neg (by simp [hp s (by simp)])]
    rw [this, ih _ hn.2 (fun t ht => hp t (by simp [ht]))]
    · simp
    · intro t ht hm
      simp only [List.mem_append, List.mem_singleton, Option.some.injEq] at hm
      rcases hm with hm | rfl
      · exact h t (by simp [ht]) hm
      · exact hn.1 ht

theorem collect_none (pre : String) (l : List String) (acc : List (Option String))
    (ha : acc.all Option.isNone = true) (hp : ∀ s ∈ l, hasPrefix pre s = true) :
    (l.foldl (collectStep pre) acc).all Option.isNone = true := by
  induction l generalizing acc with
  | nil => exact ha
  | cons s l ih =>
    rw [List.foldl_cons]
    apply ih _ _ (fun t ht => hp t (by simp [ht]))
    unfold collectStep
    split
    · exact ha
    · rw [if_pos (hp s (by simp))]; simp [ha]

/-- The names of the axis varying slowly. -/
theorem collect_outer {A : Type} (pre : String) (F : List A) (hF : F ≠ []) (l : List String)
    (acc : List (Option String)) (hn : l.Nodup) (hp : ∀ s ∈ l, hasPrefix pre s = false)
    (h : ∀ s ∈ l, some s ∉ acc) :
    (l.flatMap (fun p => F.map (fun _ => p))).foldl (collectStep pre) acc = acc ++ l.map some := by
  induction l generalizing acc with
  | nil => simp
  | cons s l ih =>
    rw [List.nodup_cons] at hn
    rw [List.flatMap_cons, List.foldl_append]
    have : (F.map (fun _ => s)).foldl (collectStep pre) acc = acc ++ [some s] := by
      match F, hF with
      | a :: F, _ =>
        rw [List.map_cons, List.foldl_cons]
        have : collectStep pre acc s = acc ++ [some s] := by
          unfold collectStep
          rw [if_neg (h s (by simp)), if_neg (by simp [hp s (by simp)])]
        rw [this]
        apply collect_old
        intro t ht
        simp only [List.mem_map] at ht
        obtain ⟨_, _, rfl⟩ := ht
        simp
    rw [this, ih _ hn.2 (fun t ht => hp t (by simp [ht]))]
    · simp
    · intro t ht hm
      simp only [List.mem_append, List.mem_singleton, Option.some.injEq] at hm
      rcases hm with hm | rfl
      · exact h t (by simp [ht]) hm
      · exact hn.1 ht

/-- The names of the axis varying quickly. -/
theorem collect_inner {A : Type} (pre : String) (F : List A) (hF : F ≠ []) (l : List String)
    (hn : l.Nodup) (hp : ∀ s ∈ l, hasPrefix pre s = false) :
    (F.flatMap (fun _ => l)).foldl (collectStep pre) [] = l.map some := by
  match F, hF with
  | a :: F, _ =>
    rw [List.flatMap_cons, List.foldl_append, collect_new pre l [] hn hp (by simp)]
    rw [List.nil_append]
    apply collect_old
    intro s hs
    simp only [List.mem_flatMap] at hs
    obtain ⟨_, _, hs⟩ := hs
    exact List.mem_map_of_mem hs

/-- Names as `unflatten` is to give them back. -/
def namesBack (names : List (Option String)) : Option (List (Option String)) :=
  if names.all Option.isNone then none else some names

theorem collect_labels {A : Type} {pre : String} (F : List A) (hF : F ≠ [])
    {names : List (Option String)} (h : Uniform pre names) (hn : names.reduceOption.Nodup)
    {l : List String} (hl : l = (flatLabels pre names).flatMap (fun p => F.map (fun _ => p)) ∨
      l = F.flatMap (fun _ => flatLabels pre names)) :
    collectNames pre l = namesBack names := by
  have hnd := nodup_flatLabels h hn
  unfold collectNames namesBack
  rcases h with h | h
  · have hp : ∀ s ∈ flatLabels pre names, hasPrefix pre s = false := by
      intro s hs
      have : some s ∈ names := by
        rw [← flatLabels_named h]; exact List.mem_map_of_mem hs
      obtain ⟨t, e, _, h2⟩ := h _ this
      cases e
      rw [← Bool.not_eq_true, hasPrefix_iff]
      exact h2
    have : l.foldl (collectStep pre) [] = names := by
      rcases hl with rfl | rfl
      · rw [collect_outer pre F hF _ _ hnd hp (by simp)]
        simpa using flatLabels_named h
      · rw [collect_inner pre F hF _ hnd hp]
        exact flatLabels_named h
    rw [this]
  · have hp : ∀ s ∈ l, hasPrefix pre s = true := by
      intro s hs
      have : s ∈ flatLabels pre names := by
        rcases hl with rfl | rfl
        · simp only [List.mem_flatMap, List.mem_map] at hs
          obtain ⟨p, hp, _, _, rfl⟩ := hs
          exact hp
        · simp only [List.mem_flatMap] at hs
          obtain ⟨_, _, hs⟩ := hs
          exact hs
      obtain ⟨i, hi⟩ := List.getElem?_of_mem this
      rw [label_unnamed h hi, hasPrefix_iff, String.toList_append]
      exact ⟨_, rfl⟩
    have h1 := collect_none pre l [] rfl hp
    have h2 : names.all Option.isNone = true := by
      rw [List.all_eq_true]
      intro x hx
      rw [h x hx]; rfl
    simp only [h1, h2, if_true]

/-- The label of point (feature) `i` in a joined name. -/
def flatLabel (pre : String) (names : List (Option String)) (i : Nat) : String :=
  ((names[i]?).join).getD (pre ++ toString i)

/-- The name of element (i, j) in the flattened object: both labels around ' | '. -/
def flatName (pNames fNames : List (Option String)) (i j : Nat) : String :=
  flatLabel "_PT#" pNames i ++ " | " ++ flatLabel "_FT#" fNames j

theorem flatLabels_lt {pre : String} {names : List (Option String)} {i : Nat}
    (hi : i < names.length) : (flatLabels pre names)[i]? = some (flatLabel pre names i) := by
  rw [flatLabels_getElem?, flatLabel, List.getElem?_eq_getElem hi]
  rfl

theorem flattenNames_spec (order : Order) (pn fn : List (Option String)) :
    (flattenNames order pn fn).length = pn.length * fn.length ∧
    ∀ i j : Nat, i < pn.length → j < fn.length →
      (flattenNames order pn fn)[flatPos order pn.length fn.length i j]? = some (flatName pn fn i j) := by
  cases order with
  | point =>
    have he : flattenNames .point pn fn = ((flatLabels "_PT#" pn).map
        (fun p => (flatLabels "_FT#" fn).map (fun f => joinName p f))).flatten := by
      simp only [flattenNames, List.flatMap_def]
    obtain ⟨h1, h2⟩ := flatten_uniform (m := fn.length) ((flatLabels "_PT#" pn).map
        (fun p => (flatLabels "_FT#" fn).map (fun f => joinName p f))) (by
      intro r hr
      simp only [List.mem_map] at hr
      obtain ⟨_, _, rfl⟩ := hr
      simp [length_flatLabels])
    rw [he]
    refine ⟨by rw [h1]; simp [length_flatLabels], fun i j hi hj => ?_⟩
    show _[i * fn.length + j]? = _
    rw [h2 i j hj]
    simp only [List.getElem?_map, flatLabels_lt hi, flatLabels_lt hj, Option.map_some,
      Option.bind_some]
    rfl
  | feature =>
    have he : flattenNames .feature pn fn = ((flatLabels "_FT#" fn).map
        (fun f => (flatLabels "_PT#" pn).map (fun p => joinName p f))).flatten := by
      simp only [flattenNames, List.flatMap_def]
    obtain ⟨h1, h2⟩ := flatten_uniform (m := pn.length) ((flatLabels "_FT#" fn).map
        (fun f => (flatLabels "_PT#" pn).map (fun p => joinName p f))) (by
      intro r hr
      simp only [List.mem_map] at hr
      obtain ⟨_, _, rfl⟩ := hr
      simp [length_flatLabels])
    rw [he]
    refine ⟨by rw [h1]; simp [length_flatLabels, Nat.mul_comm], fun i j hi hj => ?_⟩
    show _[j * pn.length + i]? = _
    rw [h2 j i hi]
    simp only [List.getElem?_map, flatLabels_lt hi, flatLabels_lt hj, Option.map_some,
      Option.bind_some]
    rfl

theorem flatPos_lt (order : Order) {n m i j : Nat} (hi : i < n) (hj : j < m) :
    flatPos order n m i j < n * m := by
  cases order with
  | point =>
    have : (i + 1) * m ≤ n * m := Nat.mul_le_mul_right m hi
    rw [Nat.succ_mul] at this
    simp only [flatPos]; omega
  | feature =>
    have : (j + 1) * n ≤ m * n := Nat.mul_le_mul_right n hj
    rw [Nat.succ_mul, Nat.mul_comm m n] at this
    simp only [flatPos]; omega

theorem flatPos_inj (order : Order) {n m i j i' j' : Nat} (hi : i < n) (hj : j < m) (hi' : i' < n)
    (hj' : j' < m) (h : flatPos order n m i j = flatPos order n m i' j') : i = i' ∧ j = j' := by
  cases order with
  | point =>
    simp only [flatPos] at h
    have h1 : (i * m + j) / m = i := by
      rw [Nat.mul_comm, Nat.mul_add_div (by omega), Nat.div_eq_of_lt hj, Nat.add_zero]
    have h2 : (i' * m + j') / m = i' := by
      rw [Nat.mul_comm, Nat.mul_add_div (by omega), Nat.div_eq_of_lt hj', Nat.add_zero]
    have : i = i' := by rw [← h1, ← h2, h]
    subst this
    exact ⟨rfl, by omega⟩
  | feature =>
    simp only [flatPos] at h
    have h1 : (j * n + i) / n = j := by
      rw [Nat.mul_comm, Nat.mul_add_div (by omega), Nat.div_eq_of_lt hi, Nat.add_zero]
    have h2 : (j' * n + i') / n = j' := by
      rw [Nat.mul_comm, Nat.mul_add_div (by omega), Nat.div_eq_of_lt hi', Nat.add_zero]
    have : j = j' := by rw [← h1, ← h2, h]
    subst this
    exact ⟨by omega, rfl⟩

theorem flatPos_surj (order : Order) {n m k : Nat} (hk : k < n * m) :
    ∃ i j, i < n ∧ j < m ∧ flatPos order n m i j = k := by
  have hm : 0 < m := by
    rcases Nat.eq_zero_or_pos m with rfl | h
    · simp at hk
    · exact h
  have hn : 0 < n := by
    rcases Nat.eq_zero_or_pos n with rfl | h
    · simp at hk
    · exact h
  cases order with
  | point =>
    refine ⟨k / m, k % m, Nat.div_lt_of_lt_mul (by rwa [Nat.mul_comm]), Nat.mod_lt _ hm, ?_⟩
    simp only [flatPos]
    rw [Nat.mul_comm]; exact Nat.div_add_mod k m
  | feature =>
    refine ⟨k % n, k / n, Nat.mod_lt _ hn, Nat.div_lt_of_lt_mul hk, ?_⟩
    simp only [flatPos]
    rw [Nat.mul_comm]; exact Nat.div_add_mod k n

/-- Different elements get different joined names. -/
def JoinedDistinct (pn fn : List (Option String)) : Prop :=
  ∀ i j i' j', i < pn.length → j < fn.length → i' < pn.length → j' < fn.length →
    flatName pn fn i j = flatName pn fn i' j' → i = i' ∧ j = j'

theorem nodup_flattenNames (order : Order) (pn fn : List (Option String)) :
    (flattenNames order pn fn).Nodup ↔ JoinedDistinct pn fn := by
  obtain ⟨h1, h2⟩ := flattenNames_spec order pn fn
  constructor
  · intro hn i j i' j' hi hj hi' hj' e
    have e1 := h2 i j hi hj
    have e2 := h2 i' j' hi' hj'
    rw [← e] at e2
    have hlt := flatPos_lt order hi hj
    rw [← h1] at hlt
    have := nodup_inj hn hlt (e1.trans e2.symm)
    exact flatPos_inj order hi hj hi' hj' this
  · intro hd
    rw [List.nodup_iff_getElem?_ne_getElem?]
    intro k k' hkk hk' hc
    rw [h1] at hk'
    obtain ⟨i, j, hi, hj, rfl⟩ := flatPos_surj order (Nat.lt_trans hkk hk')
    obtain ⟨i', j', hi', hj', rfl⟩ := flatPos_surj order hk'
    rw [h2 i j hi hj, h2 i' j' hi' hj'] at hc
    obtain ⟨rfl, rfl⟩ := hd i j i' j' hi hj hi' hj' (Option.some.inj hc)
    omega

/-- The pairs of labels in the order of `flattenNames`. -/
def labelPairs (order : Order) (P F : List String) : List (String × String) :=
  match order with
  | .point => P.flatMap (fun p => F.map (fun f => (p, f)))
  | .feature => F.flatMap (fun f => P.map (fun p => (p, f)))

theorem flattenNames_pairs (order : Order) (pn fn : List (Option String)) :
    flattenNames order pn fn =
      (labelPairs order (flatLabels "_PT#" pn) (flatLabels "_FT#" fn)).map
        (fun q => joinName q.1 q.2) := by
  cases order <;> simp [flattenNames, labelPairs, List.map_flatMap, Function.comp_def]

theorem plainPT : PlainPre "_PT#" := by unfold PlainPre; decide
theorem plainFT : PlainPre "_FT#" := by unfold PlainPre; decide

theorem mem_labelPairs {order : Order} {P F : List String} {q : String × String}
    (h : q ∈ labelPairs order P F) : q.1 ∈ P ∧ q.2 ∈ F := by
  cases order with
  | point =>
    simp only [labelPairs, List.mem_flatMap, List.mem_map] at h
    obtain ⟨p, hp, f, hf, rfl⟩ := h
    exact ⟨hp, hf⟩
  | feature =>
    simp only [labelPairs, List.mem_flatMap, List.mem_map] at h
    obtain ⟨f, hf, p, hp, rfl⟩ := h
    exact ⟨hp, hf⟩

theorem mapM_left_inverse {A B : Type} {f : B → Option A} {g : A → B} (l : List A)
    (h : ∀ q ∈ l, f (g q) = some q) : (l.map g).mapM f = some l := by
  induction l with
  | nil => rfl
  | cons a l ih =>
    rw [List.map_cons, List.mapM_cons, h a (by simp), ih (fun q hq => h q (by simp [hq]))]
    rfl

theorem split_flattenNames (order : Order) {pn fn : List (Option String)}
    (hp : Uniform "_PT#" pn) (ht : NoTrail pn) (hf : Uniform "_FT#" fn) :
    ((flattenNames order pn fn).map some).mapM splitName =
      some (labelPairs order (flatLabels "_PT#" pn) (flatLabels "_FT#" fn)) := by
  rw [flattenNames_pairs, List.map_map]
  apply mapM_left_inverse
  intro q hq
  obtain ⟨h1, h2⟩ := mem_labelPairs hq
  exact splitName_join (label_noSep plainPT hp h1) (label_noTrail plainPT hp ht h1)
    (label_noSep plainFT hf h2)

/-- Names all given or all default never collide. -/
theorem joinedDistinct_of_uniform {pn fn : List (Option String)}
    (hp : Uniform "_PT#" pn) (ht : NoTrail pn) (hf : Uniform "_FT#" fn)
    (hpn : pn.reduceOption.Nodup) (hfn : fn.reduceOption.Nodup) : JoinedDistinct pn fn := by
  intro i j i' j' hi hj hi' hj' e
  have m1 := List.mem_of_getElem? (flatLabels_lt (pre := "_PT#") hi)
  have m2 := List.mem_of_getElem? (flatLabels_lt (pre := "_FT#") hj)
  have m1' := List.mem_of_getElem? (flatLabels_lt (pre := "_PT#") hi')
  have m2' := List.mem_of_getElem? (flatLabels_lt (pre := "_FT#") hj')
  have s1 := splitName_join (label_noSep plainPT hp m1) (label_noTrail plainPT hp ht m1)
    (label_noSep plainFT hf m2)
  have s2 := splitName_join (label_noSep plainPT hp m1') (label_noTrail plainPT hp ht m1')
    (label_noSep plainFT hf m2')
  have e' : joinName (flatLabel "_PT#" pn i) (flatLabel "_FT#" fn j) =
    joinName (flatLabel "_PT#" pn i') (flatLabel "_FT#" fn j') := e
  rw [e', s2] at s1
  simp only [Option.some.injEq, Prod.mk.injEq] at s1
  have n1 := nodup_flatLabels hp hpn
  have n2 := nodup_flatLabels hf hfn
  have l1 : i < (flatLabels "_PT#" pn).length := by rw [length_flatLabels]; exact hi
  have l2 : j < (flatLabels "_FT#" fn).length := by rw [length_flatLabels]; exact hj
  refine ⟨nodup_inj n1 l1 ?_, nodup_inj n2 l2 ?_⟩
  · rw [flatLabels_lt hi, flatLabels_lt hi', s1.1]
  · rw [flatLabels_lt hj, flatLabels_lt hj', s1.2]

namespace Obj
variable {V : Type}

theorem getNames_nodup {a : AxisSt} (h : a.Ok) : a.getNames.reduceOption.Nodup := by
  cases ht : a.tbl with
  | none => simp [AxisSt.getNames, ht, List.reduceOption]
  | some t => rw [AxisSt.getNames_of_some ht]; exact (h t ht).reduceOption_nodup

theorem getNames_not_created {a : AxisSt} (h : a.namesCreated = false) : NoneNamed a.getNames := by
  cases ht : a.tbl with
  | none =>
    intro x hx
    simp only [AxisSt.getNames, ht] at hx
    exact List.eq_of_mem_replicate hx
  | some t => simp [AxisSt.namesCreated, ht] at h

theorem noTrail_none {l : List (Option String)} (h : NoneNamed l) : NoTrail l := by
  intro s hs
  exact absurd (h _ hs) (by simp)

theorem reduceOption_map_some (l : List String) : (l.map some).reduceOption = l := by
  simp [List.reduceOption, List.filterMap_map]

/-- `flatten` in closed form. -/
theorem flatten_spec {o : Obj V} (h : o.WF) (hn : 0 < o.pts.len) (hm : 0 < o.fts.len)
    (order : Order) :
    (JoinedDistinct o.pts.getNames o.fts.getNames →
      ∃ r, o.flatten order = (r, .ok ()) ∧ r.WF ∧ r.data = [o.flatData order] ∧ r.pts.len = 1 ∧
        r.pts.getNames = [some "Flattened"] ∧
        r.fts.len = o.pts.len * o.fts.len ∧
        ((o.pts.namesCreated = false ∧ o.fts.namesCreated = false ∧ r.fts.tbl = none) ∨
          ((o.pts.namesCreated || o.fts.namesCreated) = true ∧ r.fts.namesCreated = true ∧
          r.fts.getNames = (flattenNames order o.pts.getNames o.fts.getNames).map some))) ∧
    (¬ JoinedDistinct o.pts.getNames o.fts.getNames →
      (o.flatten order).2 = .error .InvalidArgumentValue) := by
  have hl := (flatData_spec h order).1
  obtain ⟨hNl, -⟩ := flattenNames_spec order o.pts.getNames o.fts.getNames
  rw [h.pts.length_getNames, h.fts.length_getNames] at hNl
  have hN := nodup_flattenNames order o.pts.getNames o.fts.getNames
  have hpt : AxisSt.setNames { o.pts with len := 1 } (.list [some "Flattened"]) =
      .ok ⟨1, some ⟨namedPairs 0 [some "Flattened"], [some "Flattened"]⟩⟩ := by
    rw [setNames_list_eq, if_pos ⟨rfl, by simp [List.reduceOption]⟩]
  have hpok : AxisSt.Ok ⟨1, some ⟨namedPairs 0 [some "Flattened"], [some "Flattened"]⟩⟩ :=
    mk_ok rfl (by simp [List.reduceOption])
  unfold flatten
  rw [if_neg (by omega), if_neg (by omega)]
  simp only []
  constructor
  · intro hd
    by_cases hc : (o.pts.namesCreated || o.fts.namesCreated) = true
    · rw [if_pos hc, setNames_list_eq, if_pos ⟨by simp [hNl], by
        rw [reduceOption_map_some]; exact hN.2 hd⟩]
      simp only [hpt]
      refine ⟨_, rfl, ⟨rfl, ?_, hpok, ?_⟩, rfl, rfl, rfl, rfl, Or.inr ⟨hc, rfl, rfl⟩⟩
      · intro r hr
        simp only [List.mem_singleton] at hr
        subst hr; exact hl
      · exact mk_ok (by simp [hNl]) (by rw [reduceOption_map_some]; exact hN.2 hd)
    · rw [if_neg hc]
      have hcc : o.pts.namesCreated = false ∧ o.fts.namesCreated = false := by simpa using hc
      simp only [AxisSt.setNames]
      have hpt' := hpt
      simp only [AxisSt.setNames] at hpt'
      simp only [hpt']
      refine ⟨_, rfl, ⟨rfl, ?_, hpok, none_ok _⟩, rfl, rfl, rfl, rfl, Or.inl ⟨hcc.1, hcc.2, rfl⟩⟩
      intro r hr
      simp only [List.mem_singleton] at hr
      subst hr; exact hl
  · intro hd
    by_cases hc : (o.pts.namesCreated || o.fts.namesCreated) = true
    · rw [if_pos hc, setNames_list_eq, if_neg (by
        rintro ⟨_, h2⟩
        rw [reduceOption_map_some] at h2
        exact hd (hN.1 h2))]
    · have hcc : o.pts.namesCreated = false ∧ o.fts.namesCreated = false := by simpa using hc
      exact absurd (joinedDistinct_of_uniform (Or.inr (getNames_not_created hcc.1))
        (noTrail_none (getNames_not_created hcc.1)) (Or.inr (getNames_not_created hcc.2))
        (getNames_nodup h.pts) (getNames_nodup h.fts)) hd

/-- C14. `flatten` succeeds exactly for objects with at least one point and one feature in which no
two elements get the same joined name. -/
theorem C14_flatten_accepts_iff {o : Obj V} (h : o.WF) (order : Order) :
    (o.flatten order).2 = .ok () ↔
      0 < o.pts.len ∧ 0 < o.fts.len ∧ JoinedDistinct o.pts.getNames o.fts.getNames := by
  by_cases hn : o.pts.len = 0
  · unfold flatten
    rw [if_pos hn]
    simp; omega
  by_cases hm : o.fts.len = 0
  · unfold flatten
    rw [if_neg hn, if_pos hm]
    simp; omega
  obtain ⟨h1, h2⟩ := flatten_spec h (Nat.pos_of_ne_zero hn) (Nat.pos_of_ne_zero hm) order
  constructor
  · intro hok
    refine ⟨Nat.pos_of_ne_zero hn, Nat.pos_of_ne_zero hm, ?_⟩
    by_contra hd
    rw [h2 hd] at hok
    simp at hok
  · rintro ⟨-, -, hd⟩
    obtain ⟨r, hr, -⟩ := h1 hd
    rw [hr]

/-- C14. When `flatten` succeeds the object has one point, called 'Flattened', which holds element
(i, j) at `i * m + j` ('point' order) or `j * n + i` ('feature' order); the name there is the two
names around ' | ', with '_PT#i' and '_FT#j' in place of default names, or default when the object
had no names at all. -/
theorem C14_flatten {o r : Obj V} (h : o.WF) (order : Order) (hr : o.flatten order = (r, .ok ())) :
    r.WF ∧ r.pts.len = 1 ∧ r.fts.len = o.pts.len * o.fts.len ∧
    r.pts.getNames = [some "Flattened"] ∧
    (∀ i j, i < o.pts.len → j < o.fts.len →
      r.elem? 0 (flatPos order o.pts.len o.fts.len i j) = o.elem? i j) ∧
    (((∀ x ∈ o.pts.getNames, x = none) ∧ (∀ x ∈ o.fts.getNames, x = none) ∧
        (∀ x ∈ r.fts.getNames, x = none)) ∨
      ∀ i j, i < o.pts.len → j < o.fts.len →
        r.fts.getNames[flatPos order o.pts.len o.fts.len i j]? =
          some (some (flatName o.pts.getNames o.fts.getNames i j))) := by
  obtain ⟨hn, hm, hd⟩ := (C14_flatten_accepts_iff h order).1 (by rw [hr])
  obtain ⟨r', h0, h1, h2, h3, h4, h5, h6⟩ := (flatten_spec h hn hm order).1 hd
  have : r' = r := by rw [hr] at h0; cases h0; rfl
  subst this
  refine ⟨h1, h3, h5, h4, ?_, ?_⟩
  · intro i j hi hj
    unfold elem?
    rw [h2]
    exact (flatData_spec h order).2 i j hi hj
  · rcases h6 with ⟨c1, c2, c3⟩ | ⟨_, _, c3⟩
    · refine Or.inl ⟨getNames_not_created c1, getNames_not_created c2, ?_⟩
      apply getNames_not_created
      simp [AxisSt.namesCreated, c3]
    · right
      intro i j hi hj
      have := (flattenNames_spec order o.pts.getNames o.fts.getNames).2 i j
        (by rw [h.pts.length_getNames]; exact hi) (by rw [h.fts.length_getNames]; exact hj)
      rw [h.pts.length_getNames, h.fts.length_getNames] at this
      rw [c3, List.getElem?_map, this]
      rfl

/-! ## unflatten -/

theorem foldl_collect_nodup (pre : String) (l : List String) (acc : List (Option String))
    (h : acc.reduceOption.Nodup) : (l.foldl (collectStep pre) acc).reduceOption.Nodup := by
  induction l generalizing acc with
  | nil => exact h
  | cons s l ih =>
    rw [List.foldl_cons]
    apply ih
    unfold collectStep
    split
    · exact h
    · rename_i hs
      split
      · simpa [List.reduceOption] using h
      · rw [List.reduceOption_append, List.nodup_append]
        refine ⟨h, by simp [List.reduceOption], ?_⟩
        intro a ha b hb e
        have hb' : b = s := by simpa [List.reduceOption] using hb
        subst hb' e
        apply hs
        simpa [List.reduceOption] using ha

theorem collectNames_nodup {pre : String} {l : List String} {names : List (Option String)}
    (h : collectNames pre l = some names) : names.reduceOption.Nodup := by
  unfold collectNames at h
  simp only [] at h
  split at h
  · cases h
  · cases h
    exact foldl_collect_nodup pre l [] (by simp [List.reduceOption])

/-- Names that may be given to an axis of length `n`. -/
def NamesFit (n : Nat) (names : Option (List (Option String))) : Prop :=
  ∀ l, names = some l → l.length = n ∧ l.reduceOption.Nodup

theorem setNames_fit {n : Nat} {t : Option NameTable} {names : Option (List (Option String))}
    (h : NamesFit n names) : ∃ a, AxisSt.setNames ⟨n, t⟩ (asAssign names) = .ok a ∧ a.Ok ∧ a.len = n ∧
      a.getNames = names.getD (List.replicate n none) := by
  cases names with
  | none => exact ⟨⟨n, none⟩, rfl, none_ok n, rfl, rfl⟩
  | some l =>
    obtain ⟨h1, h2⟩ := h l rfl
    refine ⟨⟨n, some ⟨namedPairs 0 l, l⟩⟩, ?_, mk_ok h1 h2, rfl, rfl⟩
    simp only [asAssign]
    rw [setNames_list_eq, if_pos ⟨h1, h2⟩]

theorem unflattenNames_nodup (o : Obj V) :
    (∀ l, o.unflattenNames.1 = some l → l.reduceOption.Nodup) ∧
    (∀ l, o.unflattenNames.2 = some l → l.reduceOption.Nodup) := by
  unfold unflattenNames
  split
  · simp
  · exact ⟨fun l hl => collectNames_nodup hl, fun l hl => collectNames_nodup hl⟩

theorem dropWrong_fit {n : Nat} {names : Option (List (Option String))}
    (h : ∀ l, names = some l → l.reduceOption.Nodup) : NamesFit n (dropWrongLength n names) := by
  intro l hl
  unfold dropWrongLength at hl
  cases names with
  | none => simp at hl
  | some q =>
    simp only [Option.bind_some] at hl
    split at hl
    · cases hl
      rename_i hq
      exact ⟨hq, h _ rfl⟩
    · cases hl

theorem unflatten_spec (o : Obj V) (order : Order) (dims : List Int)
    (hc : o.unflattenCheck order dims = .ok ()) :
    ∃ r p f, o.unflatten order dims = .ok r ∧ r.pts.Ok ∧ r.fts.Ok ∧
      r.pts.len = (dims.headD 0).toNat ∧ r.fts.len = dims.tail.prod.toNat ∧
      r.data = unflatData order (dims.headD 0).toNat dims.tail.prod.toNat o.data.flatten ∧
      (p, f) = (if dims.length = 2 then o.unflattenNames else (none, none)) ∧
      r.pts.getNames = (dropWrongLength (dims.headD 0).toNat p).getD
        (List.replicate (dims.headD 0).toNat none) ∧
      r.fts.getNames = (dropWrongLength dims.tail.prod.toNat f).getD
        (List.replicate dims.tail.prod.toNat none) := by
  obtain ⟨n1, n2⟩ := unflattenNames_nodup o
  have f1 : NamesFit (dims.headD 0).toNat (dropWrongLength (dims.headD 0).toNat
      (if dims.length = 2 then o.unflattenNames else (none, none)).1) := by
    apply dropWrong_fit
    split
    · exact n1
    · simp
  have f2 : NamesFit dims.tail.prod.toNat (dropWrongLength dims.tail.prod.toNat
      (if dims.length = 2 then o.unflattenNames else (none, none)).2) := by
    apply dropWrong_fit
    split
    · exact n2
    · simp
  obtain ⟨a, a1, a2, a3, a4⟩ := setNames_fit (t := o.pts.tbl) f1
  obtain ⟨b, b1, b2, b3, b4⟩ := setNames_fit (t := o.fts.tbl) f2
  refine ⟨⟨unflatData order (dims.headD 0).toNat dims.tail.prod.toNat o.data.flatten, a, b⟩, _, _,
    ?_, a2, b2, a3, b3, rfl, rfl, a4, b4⟩
  unfold unflatten
  simp only [hc, bind, Except.bind, pure, Except.pure, a1, b1]

/-- C14. `unflatten` succeeds exactly for objects with one point or one feature and at least one
element, for two or more dimensions whose product is the number of elements (two only in 'feature'
order). -/
theorem C14_unflatten_accepts_iff (o : Obj V) (order : Order) (dims : List Int) :
    (∃ r, o.unflatten order dims = .ok r) ↔
      0 < o.pts.len ∧ 0 < o.fts.len ∧ (o.pts.len = 1 ∨ o.fts.len = 1) ∧
      2 ≤ dims.length ∧ dims.prod = ((o.pts.len * o.fts.len : Nat) : Int) ∧
      (order = .feature → dims.length = 2) := by
  have hck : o.unflattenCheck order dims = .ok () ↔
      0 < o.pts.len ∧ 0 < o.fts.len ∧ (o.pts.len = 1 ∨ o.fts.len = 1) ∧
      2 ≤ dims.length ∧ dims.prod = ((o.pts.len * o.fts.len : Nat) : Int) ∧
      (order = .feature → dims.length = 2) := by
    unfold unflattenCheck
    split
    · simp; omega
    split
    · simp; omega
    split
    · simp; omega
    split
    · simp; omega
    split
    · rename_i hx
      obtain ⟨hx1, rfl⟩ := hx
      simp; omega
    · rename_i h5
      simp only [true_iff]
      refine ⟨by omega, by omega, by omega, by omega, by omega, ?_⟩
      rintro rfl
      simp at h5
      omega
  rw [← hck]
  constructor
  · rintro ⟨r, hr⟩
    unfold unflatten at hr
    cases hc : o.unflattenCheck order dims with
    | ok u => rfl
    | error e => rw [hc] at hr; simp [bind, Except.bind] at hr
  · intro hc
    obtain ⟨r, _, _, hr, _⟩ := unflatten_spec o order dims hc
    exact ⟨r, hr⟩

theorem check_of_ok {o r : Obj V} {order : Order} {dims : List Int}
    (h : o.unflatten order dims = .ok r) : o.unflattenCheck order dims = .ok () := by
  unfold unflatten at h
  cases hc : o.unflattenCheck order dims with
  | ok u => rfl
  | error e => rw [hc] at h; simp [bind, Except.bind] at h

/-- C14. When `unflatten((n, m), order)` succeeds the result is an n by m object holding value number
`i * m + j` ('point') or `j * n + i` ('feature') of the object at (i, j). -/
theorem C14_unflatten_data {o r : Obj V} (h : o.WF) (order : Order) (n m : Nat)
    (hr : o.unflatten order [(n : Int), (m : Int)] = .ok r) :
    r.WF ∧ r.pts.len = n ∧ r.fts.len = m ∧
    ∀ i j, i < n → j < m → r.elem? i j = o.data.flatten[flatPos order n m i j]? := by
  have hc := check_of_ok hr
  obtain ⟨r', p, f, e, k1, k2, k3, k4, k5, -⟩ := unflatten_spec o order _ hc
  rw [hr] at e
  cases e
  obtain ⟨-, -, -, -, hp, -⟩ := (C14_unflatten_accepts_iff o order _).1 ⟨r, hr⟩
  have hlen : o.data.flatten.length = n * m := by
    rw [(flatten_uniform o.data h.cols).1, h.rows]
    simp at hp
    exact_mod_cast hp.symm
  have k3' : r.pts.len = n := by rw [k3]; simp
  have k4' : r.fts.len = m := by rw [k4]; simp
  have k5' : r.data = unflatData order n m o.data.flatten := by rw [k5]; simp
  obtain ⟨u1, u2, u3⟩ := unflatData_spec order hlen
  refine ⟨⟨by rw [k5', u1, k3'], by rw [k5', k4']; exact u2, k1, k2⟩, k3', k4', ?_⟩
  intro i j hi hj
  unfold elem?
  rw [k5']
  exact u3 i j hi hj

/-- C14. `flatten(order)` followed by `unflatten(the former shape, order)` always succeeds when
`flatten` does and gives back the data. -/
theorem C14_round_trip_data {o r : Obj V} (h : o.WF) (order : Order)
    (hr : o.flatten order = (r, .ok ())) :
    ∃ b, r.unflatten order [(o.pts.len : Int), (o.fts.len : Int)] = .ok b ∧ b.WF ∧
      b.pts.len = o.pts.len ∧ b.fts.len = o.fts.len ∧
      ∀ i j, i < o.pts.len → j < o.fts.len → b.elem? i j = o.elem? i j := by
  obtain ⟨hn, hm, hd⟩ := (C14_flatten_accepts_iff h order).1 (by rw [hr])
  obtain ⟨r', h0, h1, h2, h3, -, h5, -⟩ := (flatten_spec h hn hm order).1 hd
  have : r' = r := by rw [hr] at h0; cases h0; rfl
  subst this
  obtain ⟨b, hb⟩ := (C14_unflatten_accepts_iff r' order [(o.pts.len : Int), (o.fts.len : Int)]).2
    ⟨by omega, by rw [h5]; exact Nat.mul_pos hn hm, Or.inl h3, by simp, by
      rw [h3, h5]; simp, by simp⟩
  obtain ⟨b1, b2, b3, b4⟩ := C14_unflatten_data h1 order _ _ hb
  refine ⟨b, hb, b1, b2, b3, fun i j hi hj => ?_⟩
  rw [b4 i j hi hj, h2]
  simp only [List.flatten_cons, List.flatten_nil, List.append_nil]
  exact (flatData_spec h order).2 i j hi hj

theorem namesBack_fit {n : Nat} {names : List (Option String)} (hl : names.length = n) :
    (dropWrongLength n (namesBack names)).getD (List.replicate n none) = names := by
  unfold namesBack
  split
  · rename_i hall
    rw [List.all_eq_true] at hall
    apply List.ext_getElem?
    intro i
    simp only [dropWrongLength, Option.bind_none, Option.getD_none, List.getElem?_replicate]
    split
    · rename_i hi
      have hi' : i < names.length := by omega
      have := hall names[i] (List.getElem_mem hi')
      rw [Option.isNone_iff_eq_none] at this
      rw [List.getElem?_eq_getElem hi', this]
    · rw [List.getElem?_eq_none (by omega)]
  · simp [dropWrongLength, hl]

/-- C14. The names come back too when on each axis all names are given or none is, no name contains
' | ' or looks like a generated one, no point name ends in ' |' and the object has two elements or
more.  (Missing: partially named axes, single elements; both fail, see below.) -/
theorem C14_round_trip_names_partial {o r b : Obj V} (h : o.WF) (order : Order)
    (hp : AllNamed "_PT#" o.pts.getNames ∧ NoTrail o.pts.getNames ∨ NoneNamed o.pts.getNames)
    (hf : AllNamed "_FT#" o.fts.getNames ∨ NoneNamed o.fts.getNames)
    (h2 : 1 < o.pts.len * o.fts.len)
    (hr : o.flatten order = (r, .ok ()))
    (hb : r.unflatten order [(o.pts.len : Int), (o.fts.len : Int)] = .ok b) :
    b.pts.getNames = o.pts.getNames ∧ b.fts.getNames = o.fts.getNames := by
  obtain ⟨hn, hm, hd⟩ := (C14_flatten_accepts_iff h order).1 (by rw [hr])
  obtain ⟨r', g0, g1, g2, g3, -, g5, g6⟩ := (flatten_spec h hn hm order).1 hd
  have : r' = r := by rw [hr] at g0; cases g0; rfl
  subst this
  have hpu : Uniform "_PT#" o.pts.getNames := hp.imp And.left id
  have hpt : NoTrail o.pts.getNames := by
    rcases hp with hp | hp
    · exact hp.2
    · exact noTrail_none hp
  have hlp := h.pts.length_getNames
  have hlf := h.fts.length_getNames
  have hnames : r'.unflattenNames = (namesBack o.pts.getNames, namesBack o.fts.getNames) := by
    rcases g6 with ⟨c1, c2, c3⟩ | ⟨c0, c1, c2⟩
    · have p1 : r'.possibleNames = none := by
        unfold possibleNames
        rw [if_neg (by omega), if_neg (by simp [AxisSt.namesCreated, c3])]
      unfold unflattenNames
      rw [p1]
      have e1 : o.pts.getNames.all Option.isNone = true := by
        rw [List.all_eq_true]; intro x hx; rw [getNames_not_created c1 x hx]; rfl
      have e2 : o.fts.getNames.all Option.isNone = true := by
        rw [List.all_eq_true]; intro x hx; rw [getNames_not_created c2 x hx]; rfl
      simp only [Option.bind_none, namesBack, e1, e2, if_true]
    · have p1 : r'.possibleNames =
          some ((flattenNames order o.pts.getNames o.fts.getNames).map some) := by
        unfold possibleNames
        rw [if_neg (by omega), if_pos ⟨by rw [g5]; exact h2, c1⟩, c2]
      unfold unflattenNames
      rw [p1]
      simp only [Option.bind_some]
      rw [split_flattenNames order hpu hpt hf]
      simp only [Prod.mk.injEq]
      have neP : flatLabels "_PT#" o.pts.getNames ≠ [] := by
        intro e
        have := length_flatLabels "_PT#" o.pts.getNames
        rw [e, hlp] at this
        simp at this; omega
      have neF : flatLabels "_FT#" o.fts.getNames ≠ [] := by
        intro e
        have := length_flatLabels "_FT#" o.fts.getNames
        rw [e, hlf] at this
        simp at this; omega
      cases order with
      | point =>
        constructor
        · apply collect_labels _ neF hpu (getNames_nodup h.pts)
          left
          simp [labelPairs, List.map_flatMap, Function.comp_def]
        · apply collect_labels _ neP hf (getNames_nodup h.fts)
          right
          simp [labelPairs, List.map_flatMap, Function.comp_def]
      | feature =>
        constructor
        · apply collect_labels _ neF hpu (getNames_nodup h.pts)
          right
          simp [labelPairs, List.map_flatMap, Function.comp_def]
        · apply collect_labels _ neP hf (getNames_nodup h.fts)
          left
          simp [labelPairs, List.map_flatMap, Function.comp_def]
  obtain ⟨b', p, f, e, -, -, -, -, -, k6, k7, k8⟩ := unflatten_spec r' order _ (check_of_ok hb)
  rw [hb] at e
  cases e
  simp only [List.length_cons, List.length_nil, if_true, hnames, Prod.mk.injEq] at k6
  obtain ⟨rfl, rfl⟩ := k6
  rw [k7, k8]
  constructor
  · simpa using namesBack_fit hlp
  · simpa using namesBack_fit hlf

theorem splitName_noSep {s : String} (h : NoSep s) : splitName (some s) = none := by
  simp only [splitName]
  rw [splitSep_noSep _ _ h]

theorem mapM_none {A B : Type} {f : A → Option B} {l : List A} {a : A} (ha : a ∈ l)
    (h : f a = none) : l.mapM f = none := by
  induction l with
  | nil => simp at ha
  | cons b l ih =>
    rw [List.mapM_cons]
    rcases List.mem_cons.1 ha with rfl | ha
    · rw [h]; rfl
    · rw [ih ha]
      cases f b <;> rfl

/-- C14. `unflatten` invents no names: when some name of the object's long axis is default or has no
separator, all names of the result are default. -/
theorem C14_unflatten_other_names {o r : Obj V} (h : o.WF) (order : Order) (dims : List Int)
    (hr : o.unflatten order dims = .ok r)
    (hx : ∃ x, x ∈ (if 1 < o.pts.len then o.pts.getNames else o.fts.getNames) ∧
      (x = none ∨ ∃ s, x = some s ∧ NoSep s)) :
    (∀ x ∈ r.pts.getNames, x = none) ∧ (∀ x ∈ r.fts.getNames, x = none) := by
  obtain ⟨x, hx, hxx⟩ := hx
  have hsp : splitName x = none := by
    rcases hxx with rfl | ⟨s, rfl, hs⟩
    · rfl
    · exact splitName_noSep hs
  have acc := (C14_unflatten_accepts_iff o order dims).1 ⟨r, hr⟩
  have hnone : o.possibleNames.bind (fun l => l.mapM splitName) = none := by
    unfold possibleNames
    by_cases h1 : 1 < o.pts.len
    · rw [if_pos h1] at hx
      split
      · exact mapM_none hx hsp
      · split
        · omega
        · rfl
    · rw [if_neg h1] at hx
      rw [if_neg (by tauto)]
      split
      · exact mapM_none hx hsp
      · rfl
  have hn : o.unflattenNames = (none, none) := by
    unfold unflattenNames
    rw [hnone]
  obtain ⟨b', p, f, e, -, -, -, -, -, k6, k7, k8⟩ := unflatten_spec o order _ (check_of_ok hr)
  rw [hr] at e
  cases e
  rw [hn, ite_self] at k6
  cases k6
  rw [k7, k8]
  simp only [dropWrongLength, Option.bind_none, Option.getD_none]
  exact ⟨fun x hx => List.eq_of_mem_replicate hx, fun x hx => List.eq_of_mem_replicate hx⟩

/-! ## Concrete objects -/

/-- A 2 by 3 object with all points named and no feature named. -/
def flEx : Obj Int := ⟨[[1, 2, 3], [4, 5, 6]], ⟨2, some ⟨[("a", 0), ("b", 1)], [some "a", some "b"]⟩⟩,
  ⟨3, none⟩⟩

example : flEx.flatten .feature = (⟨[[1, 4, 2, 5, 3, 6]],
    ⟨1, some ⟨[("Flattened", 0)], [some "Flattened"]⟩⟩,
    ⟨6, some ⟨[("a | _FT#0", 0), ("b | _FT#0", 1), ("a | _FT#1", 2), ("b | _FT#1", 3),
      ("a | _FT#2", 4), ("b | _FT#2", 5)],
      [some "a | _FT#0", some "b | _FT#0", some "a | _FT#1", some "b | _FT#1", some "a | _FT#2",
        some "b | _FT#2"]⟩⟩⟩, .ok ()) := by with_unfolding_all rfl

example : (flEx.flatten .feature).1.unflatten .feature [2, 3] = .ok flEx := by with_unfolding_all rfl
example : (flEx.flatten .point).1.unflatten .point [2, 3] = .ok flEx := by with_unfolding_all rfl

example : AllNamed "_PT#" flEx.pts.getNames ∧ NoTrail flEx.pts.getNames ∧
    NoneNamed flEx.fts.getNames := by
  refine ⟨?_, ?_, ?_⟩
  · intro x hx
    have : x = some "a" ∨ x = some "b" := by
      simpa [flEx, AxisSt.getNames] using hx
    rcases this with rfl | rfl
    · exact ⟨_, rfl, by unfold NoSep; decide, by decide⟩
    · exact ⟨_, rfl, by unfold NoSep; decide, by decide⟩
  · intro s hs
    have : s = "a" ∨ s = "b" := by
      simpa [flEx, AxisSt.getNames] using hs
    rcases this with rfl | rfl <;> decide
  · unfold NoneNamed; decide

/-- Names with two separators are not taken for joined names. -/
example : (Obj.unflatten .point [1, 2] ⟨[[1, 2]], ⟨1, none⟩,
    ⟨2, some ⟨[("a | b | c", 0), ("a | d", 1)], [some "a | b | c", some "a | d"]⟩⟩⟩ : Res (Obj Int)) =
    .ok ⟨[[1, 2]], ⟨1, none⟩, ⟨2, none⟩⟩ := by with_unfolding_all rfl

/-! ## Where the English property fails -/

/-- C14 fails for an object with one element: its names are lost. -/
theorem C14_single_element_violated : ∃ (o r b : Obj Int), o.WF ∧
    o.pts.getNames = [some "p"] ∧ o.fts.getNames = [some "f"] ∧ o.flatten .point = (r, .ok ()) ∧
    r.unflatten .point [1, 1] = .ok b ∧ b.pts.getNames = [none] ∧ b.fts.getNames = [none] := by
  refine ⟨⟨[[7]], ⟨1, some ⟨[("p", 0)], [some "p"]⟩⟩, ⟨1, some ⟨[("f", 0)], [some "f"]⟩⟩⟩, _, _,
    ⟨rfl, by decide, ?_, ?_⟩, rfl, rfl, by with_unfolding_all rfl, by with_unfolding_all rfl,
    by with_unfolding_all rfl, by with_unfolding_all rfl⟩
  · exact mk_ok (l := [some "p"]) rfl (by decide)
  · exact mk_ok (l := [some "f"]) rfl (by decide)

/-- C14 fails for a partially named axis: its names are lost. -/
theorem C14_partial_names_violated : ∃ (o r b : Obj Int), o.WF ∧
    o.pts.getNames = [some "p", none] ∧ o.flatten .point = (r, .ok ()) ∧
    r.unflatten .point [2, 2] = .ok b ∧ b.pts.getNames = [none, none] := by
  refine ⟨⟨[[1, 2], [3, 4]], ⟨2, some ⟨[("p", 0)], [some "p", none]⟩⟩, ⟨2, none⟩⟩, _, _,
    ⟨rfl, by decide, ?_, none_ok _⟩, rfl, by with_unfolding_all rfl, by with_unfolding_all rfl,
    by with_unfolding_all rfl⟩
  exact mk_ok (l := [some "p", none]) rfl (by decide)

/-- C14 fails for a point name ending in ' |', although it does not contain ' | ': other names come
back. -/
theorem C14_trailing_bar_violated : ∃ (o r b : Obj Int), o.WF ∧
    o.pts.getNames = [some "p |"] ∧ o.fts.getNames = [some "f", some "g"] ∧
    o.flatten .point = (r, .ok ()) ∧
    r.unflatten .point [1, 2] = .ok b ∧ b.pts.getNames = [some "p"] ∧
    b.fts.getNames = [some "| f", some "| g"] := by
  refine ⟨⟨[[1, 2]], ⟨1, some ⟨[("p |", 0)], [some "p |"]⟩⟩,
    ⟨2, some ⟨[("f", 0), ("g", 1)], [some "f", some "g"]⟩⟩⟩, _, _,
    ⟨rfl, by decide, ?_, ?_⟩, rfl, rfl, by with_unfolding_all rfl, by with_unfolding_all rfl,
    by with_unfolding_all rfl, by with_unfolding_all rfl⟩
  · exact mk_ok (l := [some "p |"]) rfl (by decide)
  · exact mk_ok (l := [some "f", some "g"]) rfl (by decide)

/-- When two joined names agree `flatten` raises, and leaves an object whose names no longer belong
to its features. -/
theorem C14_flatten_collision_violated : ∃ (o r : Obj Int) (e : Err), o.WF ∧
    o.flatten .point = (r, .error e) ∧ r ≠ o ∧ ¬ r.WF := by
  refine ⟨⟨[[1, 2], [3, 4]], ⟨2, some ⟨[("a", 0), ("a | b", 1)], [some "a", some "a | b"]⟩⟩,
    ⟨2, some ⟨[("b | c", 0), ("c", 1)], [some "b | c", some "c"]⟩⟩⟩,
    ⟨[[1, 2, 3, 4]], ⟨1, some ⟨[("a", 0), ("a | b", 1)], [some "a", some "a | b"]⟩⟩,
    ⟨4, some ⟨[("b | c", 0), ("c", 1)], [some "b | c", some "c"]⟩⟩⟩, .InvalidArgumentValue,
    ⟨rfl, by decide, ?_, ?_⟩, by with_unfolding_all rfl, by decide, ?_⟩
  · exact mk_ok (l := [some "a", some "a | b"]) rfl (by decide)
  · exact mk_ok (l := [some "b | c", some "c"]) rfl (by decide)
  · intro h
    have := h.fts.length_getNames
    revert this
    decide

/-- `unflatten` accepts negative dimensions and then drops the data. -/
theorem C14_negative_dimensions_violated : ∃ (o r : Obj Int), o.WF ∧
    o.data = [[1, 2]] ∧ o.unflatten .point [-1, -2] = .ok r ∧ r.data = [] := by
  refine ⟨⟨[[1, 2]], ⟨1, none⟩, ⟨2, none⟩⟩, _, ⟨rfl, by decide, none_ok _, none_ok _⟩, rfl,
    by with_unfolding_all rfl, rfl⟩

/-- The feature names after `flatten` depend on whether default names were ever asked for. -/
theorem C14_default_names_asked_violated : ∃ (o o' : Obj Int),
    o.data = o'.data ∧ o.pts.getNames = o'.pts.getNames ∧ o.fts.getNames = o'.fts.getNames ∧
    o' = { o with pts := o.pts.touch } ∧
    (o.flatten .point).1.fts.getNames = [none, none] ∧
    (o'.flatten .point).1.fts.getNames = [some "_PT#0 | _FT#0", some "_PT#0 | _FT#1"] := by
  refine ⟨⟨[[1, 2]], ⟨1, none⟩, ⟨2, none⟩⟩, ⟨[[1, 2]], ⟨1, some ⟨[], [none]⟩⟩, ⟨2, none⟩⟩, rfl, rfl, rfl, rfl, rfl, ?_⟩
  with_unfolding_all rfl

end Obj
end Nimble
