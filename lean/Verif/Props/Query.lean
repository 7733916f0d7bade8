import Verif.Model.Query
import Mathlib.Data.List.Basic

/-!
# C29: query strings mean what they say
-/

namespace Nimble
namespace Query

/-! ## Specification -/

/-- `op` padded by spaces occurs in `s` with `pre` before it and `suf` after it. -/
def OpOccurs (s pre op suf : Str) : Prop := op ∈ ops ∧ s = pre ++ padOp op ++ suf

/-- No padded operator occurs in `s`. -/
def NoOp (s : Str) : Prop := ∀ pre op suf, ¬ OpOccurs s pre op suf

/-- The padded operator of the string is unambiguous: this is its only occurrence. -/
def OnlyOp (s name op val : Str) : Prop :=
  OpOccurs s name op val ∧
  ∀ pre op' suf, OpOccurs s pre op' suf → pre = name ∧ op' = op ∧ suf = val

/-- `" is "` does not occur in `s` (so neither does `" is not "`). -/
def NoIs (s : Str) : Prop := ∀ pre suf, s ≠ pre ++ padIs false ++ suf

/-- `s` does not start with `"is "`. -/
def NotStartIs (s : Str) : Prop := ∀ suf, s ≠ 'i' :: 's' :: ' ' :: suf

/-- `s` starts with no operator. -/
def NotStartOp (s : Str) : Prop := ∀ op ∈ ops, ∀ suf, s ≠ op ++ suf

/-! ## Operators -/

private theorem padOp_inj {op op' suf suf' : Str} (h : op ∈ ops) (h' : op' ∈ ops)
    (he : padOp op ++ suf = padOp op' ++ suf') : op = op' ∧ suf = suf' := by
  simp only [ops, List.mem_cons, List.not_mem_nil, or_false] at h h'
  rcases h with rfl | rfl | rfl | rfl | rfl | rfl <;>
  rcases h' with rfl | rfl | rfl | rfl | rfl | rfl <;>
  simp [padOp] at he ⊢ <;> exact he

private theorem opAt_some {s op : Str} (h : opAt s = some op) : ∃ suf, OpOccurs s [] op suf := by
  unfold opAt at h
  have h1 := List.mem_of_find?_eq_some h
  have h2 := List.find?_some h
  obtain ⟨suf, hs⟩ := List.isPrefixOf_iff_prefix.1 h2
  exact ⟨suf, h1, by rw [← hs]; rfl⟩

private theorem opAt_of {op suf : Str} (h : op ∈ ops) : opAt (padOp op ++ suf) = some op := by
  cases hf : opAt (padOp op ++ suf) with
  | none =>
    unfold opAt at hf
    rw [List.find?_eq_none] at hf
    exact absurd (List.isPrefixOf_iff_prefix.2 (List.prefix_append _ _)) (hf op h)
  | some op' =>
    obtain ⟨suf', h1, h2⟩ := opAt_some hf
    rw [(padOp_inj h h1 h2).1]

private theorem opAt_none {s : Str} (h : ∀ op suf, ¬ OpOccurs s [] op suf) : opAt s = none := by
  cases hf : opAt s with
  | none => rfl
  | some op => obtain ⟨suf, hs⟩ := opAt_some hf; exact absurd hs (h op suf)

private theorem OpOccurs.cons {s pre op suf : Str} (c : Char) (h : OpOccurs s pre op suf) :
    OpOccurs (c :: s) (c :: pre) op suf := ⟨h.1, by rw [h.2]; rfl⟩

private theorem OpOccurs.tail {c d : Char} {s pre op suf : Str} (h : OpOccurs (c :: s) (d :: pre) op suf) :
    c = d ∧ OpOccurs s pre op suf := by
  have := h.2
  simp only [List.cons_append, List.cons.injEq] at this
  exact ⟨this.1, h.1, this.2⟩

theorem containsOp_nil_iff {s : Str} : containsOp s = [] ↔ NoOp s := by
  induction s with
  | nil =>
    refine ⟨fun _ pre op suf h => ?_, fun _ => rfl⟩
    have := congrArg List.length h.2
    simp [padOp] at this
  | cons c t ih =>
    constructor
    · intro h pre op suf ho
      simp only [containsOp, List.append_eq_nil_iff] at h
      cases pre with
      | nil =>
        have := ho.2
        rw [List.nil_append] at this
        rw [this, opAt_of ho.1] at h; simp at h
      | cons d pre => exact ih.1 h.2 _ _ _ ho.tail.2
    · intro h
      simp only [containsOp, List.append_eq_nil_iff]
      refine ⟨by rw [opAt_none (fun op suf => h [] op suf)]; rfl, ih.2 ?_⟩
      intro pre op suf ho
      exact h _ _ _ (ho.cons c)

private theorem onlyOp_run {name op val : Str} (h : OnlyOp (name ++ padOp op ++ val) name op val) :
    containsOp (name ++ padOp op ++ val) = [op] ∧
    splitOp (name ++ padOp op ++ val) = some (name, op, val) := by
  induction name with
  | nil =>
    have hop : opAt ([] ++ padOp op ++ val) = some op := opAt_of h.1.1
    have hs : [] ++ padOp op ++ val = ' ' :: (op ++ [' '] ++ val) := by simp [padOp]
    rw [hs] at hop
    rw [hs] at h ⊢
    constructor
    · simp only [containsOp, hop, Option.toList_some, List.singleton_append, List.cons.injEq, true_and]
      rw [containsOp_nil_iff]
      intro pre op' suf ho
      have := (h.2 _ _ _ (ho.cons ' ')).1
      simp at this
    · simp only [splitOp, hop]
      have : (' ' :: (op ++ [' '] ++ val)).drop (op.length + 2) = val := by
        simp [List.drop_append]
      rw [this]
  | cons c name ih =>
    have hsub : OnlyOp (name ++ padOp op ++ val) name op val := by
      refine ⟨⟨h.1.1, rfl⟩, ?_⟩
      intro pre op' suf ho
      have := h.2 _ _ _ (ho.cons c)
      simpa using this
    obtain ⟨h1, h2⟩ := ih hsub
    have hs : (c :: name) ++ padOp op ++ val = c :: (name ++ padOp op ++ val) := rfl
    rw [hs] at h ⊢
    have hn : opAt (c :: (name ++ padOp op ++ val)) = none := by
      apply opAt_none
      intro op' suf ho
      have := (h.2 _ _ _ ho).1
      simp at this
    constructor
    · simp only [containsOp, hn, h1]; rfl
    · simp only [splitOp, hn, h2]; rfl

private theorem splitOp_sound {s n op v : Str} (h : splitOp s = some (n, op, v)) : OpOccurs s n op v := by
  induction s generalizing n with
  | nil => simp [splitOp] at h
  | cons c t ih =>
    simp only [splitOp] at h
    cases ho : opAt (c :: t) with
    | some op' =>
      simp only [ho, Option.some.injEq, Prod.mk.injEq] at h
      obtain ⟨rfl, rfl, hv⟩ := h
      obtain ⟨suf, hs⟩ := opAt_some ho
      refine ⟨hs.1, ?_⟩
      rw [← hv, hs.2]
      have : ([] ++ padOp op' ++ suf).drop (op'.length + 2) = suf := by
        rw [List.nil_append, List.drop_append_of_le_length (by simp [padOp])]
        rw [List.drop_eq_nil_of_le (by simp [padOp])]; rfl
      rw [this]
    | none =>
      simp only [ho, Option.map_eq_some_iff] at h
      obtain ⟨⟨n', op', v'⟩, h1, h2⟩ := h
      simp only [Prod.mk.injEq] at h2
      obtain ⟨rfl, rfl, rfl⟩ := h2
      exact (ih h1).cons c

private theorem unique_of_length {s : Str} (h : (containsOp s).length ≤ 1) {pre op suf pre' op' suf' : Str}
    (h1 : OpOccurs s pre op suf) (h2 : OpOccurs s pre' op' suf') :
    pre = pre' ∧ op = op' ∧ suf = suf' := by
  induction s generalizing pre pre' with
  | nil =>
    have := congrArg List.length h1.2
    simp [padOp] at this
  | cons c t ih =>
    simp only [containsOp, List.length_append] at h
    have clash : ∀ {op suf d pre' op' suf'}, OpOccurs (c :: t) [] op suf →
        OpOccurs (c :: t) (d :: pre') op' suf' → False := by
      intro op suf d pre' op' suf' g1 g2
      have e1 : opAt (c :: t) = some op := by
        have := g1.2; rw [List.nil_append] at this; rw [this]; exact opAt_of g1.1
      have e2 : containsOp t ≠ [] := fun hc => containsOp_nil_iff.1 hc _ _ _ g2.tail.2
      have : 0 < (containsOp t).length := List.length_pos_iff.2 e2
      rw [e1] at h; simp at h; omega
    cases pre with
    | nil =>
      cases pre' with
      | nil =>
        have e := h1.2.symm.trans h2.2
        simp only [List.nil_append] at e
        exact ⟨rfl, padOp_inj h1.1 h2.1 e⟩
      | cons d pre' => exact (clash h1 h2).elim
    | cons d pre =>
      cases pre' with
      | nil => exact (clash h2 h1).elim
      | cons d' pre' =>
        obtain ⟨g1, g2⟩ := h1.tail
        obtain ⟨g3, g4⟩ := h2.tail
        have := ih (by omega) g2 g4
        exact ⟨by rw [← g1, ← g3, this.1], this.2⟩

/-! ## `is` -/

private theorem isAt_none_iff {s : Str} : isAt s = none ↔ ∀ suf, s ≠ padIs false ++ suf := by
  unfold isAt
  constructor
  · intro h suf hs
    split at h
    · cases h
    · split at h
      · cases h
      · rename_i h2
        exact h2 (List.isPrefixOf_iff_prefix.2 ⟨suf, hs.symm⟩)
  · intro h
    rw [if_neg, if_neg]
    · intro hc
      obtain ⟨suf, hs⟩ := List.isPrefixOf_iff_prefix.1 hc
      exact h suf hs.symm
    · intro hc
      obtain ⟨suf, hs⟩ := List.isPrefixOf_iff_prefix.1 hc
      exact h (['n', 'o', 't', ' '] ++ suf) (by rw [← hs]; rfl)

private theorem isAt_some {s : Str} {neg : Bool} (h : isAt s = some neg) :
    ∃ suf, s = padIs neg ++ suf ∧ (neg = false → ∀ suf', suf ≠ 'n' :: 'o' :: 't' :: ' ' :: suf') := by
  unfold isAt at h
  split at h
  · rename_i h1
    cases h
    obtain ⟨suf, hs⟩ := List.isPrefixOf_iff_prefix.1 h1
    exact ⟨suf, hs.symm, by simp⟩
  · rename_i h1
    split at h
    · rename_i h2
      cases h
      obtain ⟨suf, hs⟩ := List.isPrefixOf_iff_prefix.1 h2
      refine ⟨suf, hs.symm, fun _ suf' hsuf => h1 ?_⟩
      rw [List.isPrefixOf_iff_prefix]
      exact ⟨suf', by rw [← hs, hsuf]; rfl⟩
    · cases h

theorem containsIs_nil_iff {s : Str} : containsIs s = [] ↔ NoIs s := by
  induction s with
  | nil =>
    refine ⟨fun _ pre suf h => ?_, fun _ => rfl⟩
    have := congrArg List.length h
    simp [padIs] at this
  | cons c t ih =>
    constructor
    · intro h pre suf ho
      simp only [containsIs, List.append_eq_nil_iff] at h
      cases pre with
      | nil =>
        cases hi : isAt (c :: t) with
        | none => exact isAt_none_iff.1 hi suf ho
        | some b => rw [hi] at h; simp at h
      | cons d pre =>
        simp only [List.cons_append, List.cons.injEq] at ho
        exact ih.1 h.2 pre suf ho.2
    · intro h
      simp only [containsIs, List.append_eq_nil_iff]
      refine ⟨?_, ih.2 ?_⟩
      · rw [isAt_none_iff.2 (fun suf => h [] suf)]; rfl
      · intro pre suf ho
        exact h (c :: pre) suf (by rw [ho]; rfl)

private theorem startsIs_none_iff {s : Str} : startsIs s = none ↔ NotStartIs s := by
  unfold startsIs NotStartIs
  constructor
  · intro h suf hs
    split at h
    · cases h
    · split at h
      · cases h
      · rename_i h2
        exact h2 (List.isPrefixOf_iff_prefix.2 ⟨suf, hs.symm⟩)
  · intro h
    rw [if_neg, if_neg]
    · intro hc
      obtain ⟨suf, hs⟩ := List.isPrefixOf_iff_prefix.1 hc
      exact h suf hs.symm
    · intro hc
      obtain ⟨suf, hs⟩ := List.isPrefixOf_iff_prefix.1 hc
      exact h (['n', 'o', 't', ' '] ++ suf) (by rw [← hs]; rfl)

private theorem startsOp_none_iff {s : Str} : startsOp s = none ↔ NotStartOp s := by
  unfold startsOp NotStartOp
  rw [Option.map_eq_none_iff, List.find?_eq_none]
  constructor
  · intro h op ho suf hs
    exact h op ho (List.isPrefixOf_iff_prefix.2 ⟨suf, hs.symm⟩)
  · intro h op ho hc
    obtain ⟨suf, hs⟩ := List.isPrefixOf_iff_prefix.1 hc
    exact h op ho suf hs.symm

private theorem dotStar_self {s : Str} (h : '\n' ∉ s) : dotStar s = s := by
  unfold dotStar
  induction s with
  | nil => rfl
  | cons c t ih =>
    have hc : c ≠ '\n' := fun hc => h (by simp [hc])
    rw [List.takeWhile_cons_of_pos (by simpa using hc), ih (fun hm => h (by simp [hm]))]

/-! ## Theorems -/

/-- A string in which the word "is" plays no role. -/
structure PlainIs (s : Str) : Prop where
  noIs : NoIs s
  notStart : NotStartIs s

private theorem parseRaw_plain (accepted : Str → Bool) (eq : Option Bool) {s : Str} (h : PlainIs s) :
    parseRaw accepted eq s = parseOp eq s := by
  unfold parseRaw
  rw [containsIs_nil_iff.2 h.noIs, startsIs_none_iff.2 h.notStart]; rfl

/-- **C29** (comparison on a feature/point): `"name op value"`, with this the only padded operator,
no "is" and not starting with an operator (or `elementQuery=False`), is parsed as exactly that
name, operator and value. -/
theorem C29_axis_comparison (accepted : Str → Bool) (eq : Option Bool) (name op val : Str)
    (h : OnlyOp (name ++ padOp op ++ val) name op val) (hp : PlainIs (name ++ padOp op ++ val))
    (hs : NotStartOp (name ++ padOp op ++ val) ∨ eq = some false) (he : eq ≠ some true) :
    parse accepted eq (name ++ padOp op ++ val) = .ok (.axisOp name op val) := by
  obtain ⟨h1, h2⟩ := onlyOp_run h
  have hraw : parseRaw accepted eq (name ++ padOp op ++ val) = some (.axisOp name op val) := by
    rw [parseRaw_plain _ _ hp]
    unfold parseOp
    rw [h1, h2]
    have he' : (eq == some true) = false := by simpa using he
    have hcond : ((startsOp (name ++ padOp op ++ val)).isNone || eq == some false) = true := by
      rcases hs with hs | hs
      · rw [startsOp_none_iff.2 hs]; rfl
      · simp [hs]
    rw [he', hcond]
    simp
  unfold parse
  rw [hraw]
  have he' : (eq == some true) = false := by simpa using he
  simp [he', Q.isElem]

/-- **C29** (comparison of elements): `"op value"` without further operators, "is" or newline is an
element query with exactly that operator and value (unless a feature/point query is demanded). -/
theorem C29_element_comparison (accepted : Str → Bool) (eq : Option Bool) (op val : Str)
    (ho : op ∈ ops) (hn : NoOp (op ++ ' ' :: val)) (hp : NoIs (op ++ ' ' :: val))
    (hl : '\n' ∉ val) (he : eq ≠ some false) :
    parse accepted eq (op ++ ' ' :: val) = .ok (.elemOp op val) := by
  have hst : startsOp (op ++ ' ' :: val) = some (op, val) := by
    have hd : dotStar val = val := dotStar_self hl
    have hf : ops.find? (fun o => o.isPrefixOf (op ++ ' ' :: val)) = some op := by
      simp only [ops, List.mem_cons, List.not_mem_nil, or_false] at ho
      rcases ho with rfl | rfl | rfl | rfl | rfl | rfl <;> rfl
    unfold startsOp
    rw [hf]
    simp [optSpace, hd]
  have hplain : PlainIs (op ++ ' ' :: val) := by
    refine ⟨hp, ?_⟩
    intro suf hs
    simp only [ops, List.mem_cons, List.not_mem_nil, or_false] at ho
    rcases ho with rfl | rfl | rfl | rfl | rfl | rfl <;> simp at hs
  have hraw : parseRaw accepted eq (op ++ ' ' :: val) = some (.elemOp op val) := by
    rw [parseRaw_plain _ _ hplain]
    unfold parseOp
    rw [hst, containsOp_nil_iff.2 hn]; rfl
  unfold parse
  rw [hraw]
  have he' : (eq == some false) = false := by simpa using he
  simp [he', Q.isElem]

/-- **C29** (nothing is guessed): an accepted feature/point comparison decomposes the string at its
only padded operator. -/
theorem C29_axis_comparison_sound {accepted : Str → Bool} {eq : Option Bool} {s n op v : Str}
    (h : parse accepted eq s = .ok (.axisOp n op v)) : OnlyOp s n op v := by
  have hraw : parseRaw accepted eq s = some (.axisOp n op v) := by
    unfold parse at h
    cases hr : parseRaw accepted eq s with
    | none => simp [hr] at h
    | some q =>
      simp only [hr] at h
      split at h
      · cases h
      · split at h
        · cases h
        · cases h; rfl
  have hop : parseOp eq s = some (.axisOp n op v) := by
    unfold parseRaw at hraw
    split at hraw
    · exact hraw
    · split at hraw
      · unfold parseElemIs at hraw
        rw [Option.bind_eq_some_iff] at hraw
        obtain ⟨p, _, hp⟩ := hraw
        split at hp <;> simp at hp
      · unfold parseAxisIs at hraw
        rw [Option.bind_eq_some_iff] at hraw
        obtain ⟨p, _, hp⟩ := hraw
        split at hp <;> simp at hp
  unfold parseOp at hop
  split at hop
  · rw [Option.map_eq_some_iff] at hop
    obtain ⟨p, _, hp⟩ := hop
    cases hp
  · split at hop
    · rename_i hc
      simp only [Bool.and_eq_true, beq_iff_eq] at hc
      rw [Option.map_eq_some_iff] at hop
      obtain ⟨⟨n', op', v'⟩, hs, hq⟩ := hop
      simp only [Q.axisOp.injEq] at hq
      obtain ⟨rfl, rfl, rfl⟩ := hq
      have ho := splitOp_sound hs
      exact ⟨ho, fun pre op'' suf h' => unique_of_length (by omega) h' ho⟩
    · cases hop

/-- **C29** (ambiguity is refused): a string with two padded operators in which "is" plays no role
is refused as a feature/point query. -/
theorem C29_ambiguous_refused (accepted : Str → Bool) {s pre op suf pre' op' suf' : Str}
    (h1 : OpOccurs s pre op suf) (h2 : OpOccurs s pre' op' suf') (hne : pre ≠ pre')
    (hp : PlainIs s) : parse accepted (some false) s = .error .InvalidArgumentValue := by
  unfold parse
  cases hr : parseRaw accepted (some false) s with
  | none => rfl
  | some q =>
    exfalso
    have hraw := hr
    rw [parseRaw_plain _ _ hp] at hr
    have hlen : ¬ (containsOp s).length ≤ 1 := fun hc => hne (unique_of_length hc h1 h2).1
    unfold parseOp at hr
    have he : (containsOp s).isEmpty = false := by
      rw [Bool.eq_false_iff]; intro hc
      rw [List.isEmpty_iff] at hc; rw [hc] at hlen; simp at hlen
    have hl1 : ((containsOp s).length == 1) = false := by
      rw [beq_eq_false_iff_ne]; omega
    rw [he, hl1] at hr
    simp at hr

/-! ### Queries with "is" -/

/-- What the constructor accepts comes from the body. -/
private theorem parse_ok {accepted : Str → Bool} {eq : Option Bool} {s : Str} {q : Q}
    (h : parse accepted eq s = .ok q) : parseRaw accepted eq s = some q := by
  unfold parse at h
  cases hr : parseRaw accepted eq s with
  | none => simp [hr] at h
  | some q =>
    simp only [hr] at h
    split at h
    · cases h
    · split at h
      · cases h
      · cases h; rfl

private theorem rsplitIs_sound {s n f : Str} {neg : Bool} (h : rsplitIs s = some (n, neg, f)) :
    s = n ++ padIs neg ++ f ∧ (∀ pre suf, s = pre ++ padIs false ++ suf → pre.length ≤ n.length) ∧
    (neg = false → ∀ suf', f ≠ 'n' :: 'o' :: 't' :: ' ' :: suf') := by
  induction s generalizing n with
  | nil => simp [rsplitIs] at h
  | cons c t ih =>
    simp only [rsplitIs] at h
    cases hr : rsplitIs t with
    | some r =>
      obtain ⟨n', neg', f'⟩ := r
      simp only [hr, Option.some.injEq, Prod.mk.injEq] at h
      obtain ⟨rfl, rfl, rfl⟩ := h
      obtain ⟨h1, h2, h3⟩ := ih hr
      refine ⟨by rw [h1]; rfl, ?_, h3⟩
      intro pre suf hs
      cases pre with
      | nil => simp
      | cons d pre =>
        simp only [List.cons_append, List.cons.injEq] at hs
        have := h2 pre suf hs.2
        simp; omega
    | none =>
      simp only [hr, Option.map_eq_some_iff, Prod.mk.injEq] at h
      obtain ⟨neg', hi, rfl, rfl, rfl⟩ := h
      obtain ⟨suf, hs, hnot⟩ := isAt_some hi
      have hd : (c :: t).drop (padIs neg').length = suf := by
        rw [hs]; simp
      rw [hd]
      refine ⟨by rw [hs]; rfl, ?_, hnot⟩
      intro pre suf' hs'
      cases pre with
      | nil => simp
      | cons d pre =>
        exfalso
        simp only [List.cons_append, List.cons.injEq] at hs'
        -- an occurrence in the tail contradicts `rsplitIs t = none`
        have key : ∀ (t pre suf' : Str), t = pre ++ padIs false ++ suf' → rsplitIs t ≠ none := by
          intro t
          induction t with
          | nil =>
            intro pre suf' h1
            have := congrArg List.length h1
            simp [padIs] at this
          | cons e t iht =>
            intro pre suf' h1 h2
            simp only [rsplitIs] at h2
            cases hrt : rsplitIs t with
            | some r => simp [hrt] at h2
            | none =>
              simp only [hrt, Option.map_eq_none_iff] at h2
              cases pre with
              | nil => exact isAt_none_iff.1 h2 suf' h1
              | cons d pre =>
                simp only [List.cons_append, List.cons.injEq] at h1
                exact iht pre suf' h1.2 hrt
        exact key t pre suf' hs'.2 hr

/-- After the first space of `" is f"` / `" is not f"` there is no further `" is "`. -/
private theorem tail_noIs {f : Str} {neg : Bool} (hf : ' ' ∉ f) :
    ∀ t : Str, [] ++ padIs neg ++ f = ' ' :: t → ∀ pre suf, t ≠ pre ++ padIs false ++ suf := by
  intro t ht pre suf hs
  -- every occurrence needs two spaces after the "i"
  cases neg with
  | false =>
    simp only [padIs, List.nil_append, List.cons_append, List.cons.injEq, true_and] at ht
    rw [← ht] at hs
    rcases pre with _ | ⟨a, _ | ⟨b, _ | ⟨d, pre⟩⟩⟩ <;>
      simp only [padIs, List.nil_append, List.cons_append, List.append_assoc,
        List.cons.injEq] at hs
    · exact absurd hs.1 (by decide)
    · exact absurd hs.2.1 (by decide)
    · exact hf (by rw [hs.2.2.2]; simp)
    · exact hf (by rw [hs.2.2.2]; simp)
  | true =>
    simp only [padIs, List.nil_append, List.cons_append, List.cons.injEq, true_and] at ht
    rw [← ht] at hs
    rcases pre with _ | ⟨a, _ | ⟨b, _ | ⟨d, _ | ⟨e, _ | ⟨g, _ | ⟨i, _ | ⟨j, pre⟩⟩⟩⟩⟩⟩⟩ <;>
      simp only [padIs, List.nil_append, List.cons_append, List.append_assoc,
        List.cons.injEq] at hs
    · exact absurd hs.1 (by decide)
    · exact absurd hs.2.1 (by decide)
    · exact absurd hs.2.2.2.1 (by decide)
    · exact absurd hs.2.2.2.1 (by decide)
    · exact absurd hs.2.2.2.2.1 (by decide)
    · exact absurd hs.2.2.2.2.2.1 (by decide)
    · exact hf (by rw [hs.2.2.2.2.2.2.2]; simp)
    · exact hf (by rw [hs.2.2.2.2.2.2.2]; simp)

private theorem rsplitIs_of {n f : Str} {neg : Bool} (hf : ' ' ∉ f) :
    rsplitIs (n ++ padIs neg ++ f) = some (n, neg, f) := by
  have hnone : ∀ t : Str, (∀ pre suf, t ≠ pre ++ padIs false ++ suf) → rsplitIs t = none := by
    intro t
    induction t with
    | nil => intro _; rfl
    | cons c t ih =>
      intro h
      have h1 := ih (fun pre suf hs => h (c :: pre) suf (by rw [hs]; rfl))
      have h2 : isAt (c :: t) = none := isAt_none_iff.2 (fun suf => h [] suf)
      simp only [rsplitIs, h1, h2]; rfl
  induction n with
  | nil =>
    have htail := tail_noIs (neg := neg) hf
    cases neg with
    | false =>
      have h1 := hnone _ (htail _ rfl)
      have h2 : isAt ([] ++ padIs false ++ f) = some false := by
        unfold isAt
        rw [if_neg, if_pos]
        · exact List.isPrefixOf_iff_prefix.2 ⟨f, rfl⟩
        · intro hc
          obtain ⟨suf, hs⟩ := List.isPrefixOf_iff_prefix.1 hc
          simp only [padIs, List.nil_append, List.cons_append, List.cons.injEq, true_and] at hs
          exact hf (by rw [← hs]; simp)
      have h2' : isAt (' ' :: (['i', 's', ' '] ++ f)) = some false := h2
      show rsplitIs (' ' :: (['i', 's', ' '] ++ f)) = _
      simp only [rsplitIs]
      rw [show rsplitIs (['i', 's', ' '] ++ f) = none from h1, h2']; rfl
    | true =>
      have h1 := hnone _ (htail _ rfl)
      have h2 : isAt ([] ++ padIs true ++ f) = some true := by
        unfold isAt
        rw [if_pos]
        exact List.isPrefixOf_iff_prefix.2 ⟨f, rfl⟩
      have h2' : isAt (' ' :: (['i', 's', ' ', 'n', 'o', 't', ' '] ++ f)) = some true := h2
      show rsplitIs (' ' :: (['i', 's', ' ', 'n', 'o', 't', ' '] ++ f)) = _
      simp only [rsplitIs]
      rw [show rsplitIs (['i', 's', ' ', 'n', 'o', 't', ' '] ++ f) = none from h1, h2']; rfl
  | cons c n ih =>
    show rsplitIs (c :: (n ++ padIs neg ++ f)) = _
    simp only [rsplitIs, ih]

private theorem hasIsSpace_of {pre suf : Str} : hasIsSpace (pre ++ ['i', 's', ' '] ++ suf) = true := by
  induction pre with
  | nil => simp [hasIsSpace]
  | cons c pre ih =>
    show hasIsSpace (c :: (pre ++ ['i', 's', ' '] ++ suf)) = true
    simp only [hasIsSpace, ih, Bool.or_true]

private theorem op_no_space {op : Str} (h : op ∈ ops) : ' ' ∉ op ∧ 'i' ∉ op ∧ op ≠ [] := by
  simp only [ops, List.mem_cons, List.not_mem_nil, or_false] at h
  rcases h with rfl | rfl | rfl | rfl | rfl | rfl <;> decide

/-- A padded operator in `name is func` lies before the `is`. -/
private theorem op_before_is {n f pre op v : Str} {neg : Bool} (hf : ' ' ∉ f)
    (h : OpOccurs (n ++ padIs neg ++ f) pre op v) : hasIsSpace v = true := by
  obtain ⟨ho, he⟩ := h
  obtain ⟨hsp, hi, hne⟩ := op_no_space ho
  -- split at `n ++ [' ']`
  have he1 : (n ++ [' ']) ++ ((padIs neg).tail ++ f) = (pre ++ padOp op) ++ v := by
    rw [← he]; cases neg <;> simp [padIs]
  rcases List.append_eq_append_iff.1 he1 with ⟨a, h1, h2⟩ | ⟨a, h1, h2⟩
  · -- the operator ends inside or after the `is`
    rcases List.eq_nil_or_concat a with rfl | ⟨a, x, rfl⟩
    · rw [List.nil_append] at h2
      rw [← h2]
      cases neg
      · exact hasIsSpace_of (pre := []) (suf := f)
      · exact hasIsSpace_of (pre := []) (suf := ['n', 'o', 't', ' '] ++ f)
    · exfalso
      -- the last character of the padded operator is a space inside `is[ not] f`
      have hx : x = ' ' := by
        have e : (pre ++ ' ' :: op) ++ [' '] = (n ++ [' '] ++ a) ++ [x] := by
          simpa [padOp] using h1
        have := (List.append_inj' e rfl).2
        simpa using this.symm
      subst hx
      -- so `' ' :: op` is a suffix of `n ++ [' '] ++ a`
      have h3 : pre ++ ' ' :: op = n ++ [' '] ++ a := by
        have e : (pre ++ ' ' :: op) ++ [' '] = (n ++ [' '] ++ a) ++ [' '] := by
          simpa [padOp] using h1
        exact List.append_cancel_right e
      rcases List.append_eq_append_iff.1 h3 with ⟨b, g1, g2⟩ | ⟨b, g1, g2⟩
      · -- `n ++ [' ']` reaches into `' ' :: op`
        rcases b with _ | ⟨y, b⟩
        · -- then `a` starts with a space
          rw [List.nil_append] at g2
          rw [← g2] at h2
          cases neg <;> simp [padIs] at h2
        · have : b ++ a = op := by simpa using (List.cons.inj g2).2.symm
          have hb : ' ' ∉ b ++ a := by rw [this]; exact hsp
          rcases List.eq_nil_or_concat b with rfl | ⟨b, z, rfl⟩
          · rw [List.nil_append] at this
            rw [this] at h2
            simp only [ops, List.mem_cons, List.not_mem_nil, or_false] at ho
            rcases ho with rfl | rfl | rfl | rfl | rfl | rfl <;> cases neg <;> simp [padIs] at h2
          · have : z = ' ' := by
              have e : n ++ [' '] = (pre ++ y :: b) ++ [z] := by simpa using g1
              have := (List.append_inj' e rfl).2
              simpa using this.symm
            exact hb (by simp [this])
      · -- `pre` reaches beyond `n ++ [' ']`: a space, the operator and a space inside `is[ not] f`
        subst g2
        cases neg with
        | false =>
          rcases b with _ | ⟨b1, _ | ⟨b2, _ | ⟨b3, b⟩⟩⟩ <;> simp [padIs] at h2
          · exact hf (by rw [h2.2.2]; simp)
          · exact hf (by rw [h2.2.2.2]; simp)
        | true =>
          rcases b with _ | ⟨b1, _ | ⟨b2, _ | ⟨b3, _ | ⟨b4, _ | ⟨b5, _ | ⟨b6, _ | ⟨b7, b⟩⟩⟩⟩⟩⟩⟩ <;>
            simp [padIs] at h2
          · simp only [ops, List.mem_cons, List.not_mem_nil, or_false] at ho
            rcases ho with rfl | rfl | rfl | rfl | rfl | rfl <;> simp at h2
          · exact hf (by rw [h2.2.2.2.2.2.2]; simp)
          · exact hf (by rw [h2.2.2.2.2.2.2.2]; simp)
  · -- the operator ends before the `is`
    rw [h2]
    cases neg
    · have := hasIsSpace_of (pre := a) (suf := f); simpa [padIs] using this
    · have := hasIsSpace_of (pre := a) (suf := ['n', 'o', 't', ' '] ++ f); simpa [padIs] using this

/-- **C29** (`is` tests on a feature/point): `"name is func"` and `"name is not func"` with an
accepted function (a word without spaces) are parsed as exactly that, whatever the name is. -/
theorem C29_axis_is (accepted : Str → Bool) (eq : Option Bool) (name f : Str) (neg : Bool)
    (ha : accepted f = true) (hf : ' ' ∉ f) (he : eq ≠ some true) :
    parse accepted eq (name ++ padIs neg ++ f) = .ok (.axisIs name neg f) := by
  have hr := rsplitIs_of (n := name) (f := f) (neg := neg) hf
  have hci : containsIs (name ++ padIs neg ++ f) ≠ [] := by
    intro hc
    refine containsIs_nil_iff.1 hc name ?_ ?_
    · exact (padIs neg).drop 4 ++ f
    · cases neg <;> simp [padIs]
  have hce : (containsIs (name ++ padIs neg ++ f)).isEmpty = false := by
    rw [Bool.eq_false_iff]; intro hc; exact hci (List.isEmpty_iff.1 hc)
  have hax : isAsAxisName (name ++ padIs neg ++ f) = false := by
    have hop : ∀ pre op v, OpOccurs (name ++ padIs neg ++ f) pre op v → hasIsSpace v = true :=
      fun pre op v h => op_before_is hf h
    unfold isAsAxisName
    rw [hce]
    generalize name ++ padIs neg ++ f = s at hop
    cases hsp : splitOp s with
    | none =>
      have hz : containsOp s = [] := by
        have key : ∀ t : Str, splitOp t = none → containsOp t = [] := by
          intro t
          induction t with
          | nil => intro _; rfl
          | cons c t ih =>
            intro h
            simp only [splitOp] at h
            cases ho : opAt (c :: t) with
            | some op => simp [ho] at h
            | none =>
              simp only [ho, Option.map_eq_none_iff] at h
              simp only [containsOp, ho, ih h]; rfl
        exact key _ hsp
      simp [hz]
    | some r =>
      obtain ⟨n', op, v⟩ := r
      have := hop _ _ _ (splitOp_sound hsp)
      simp [afterOp, hsp, this]
  have hraw : parseRaw accepted eq (name ++ padIs neg ++ f) = some (.axisIs name neg f) := by
    unfold parseRaw
    rw [hce, hax]
    simp only [Bool.not_false, Bool.true_or, Bool.not_true, Bool.false_or, Bool.false_eq_true,
      if_false, Bool.and_false, Bool.false_and]
    unfold parseAxisIs
    rw [hr]
    simp [ha]
  unfold parse
  rw [hraw]
  have he' : (eq == some true) = false := by simpa using he
  simp [he', Q.isElem]

/-- **C29** (`is` decompositions are faithful): an accepted `is` query on a feature/point cuts the
string at its last padded "is"/"is not". -/
theorem C29_axis_is_sound {accepted : Str → Bool} {eq : Option Bool} {s n f : Str} {neg : Bool}
    (h : parse accepted eq s = .ok (.axisIs n neg f)) :
    s = n ++ padIs neg ++ f ∧ accepted f = true ∧
    (∀ pre suf, s = pre ++ padIs false ++ suf → pre.length ≤ n.length) := by
  have hraw := parse_ok h
  unfold parseRaw at hraw
  split at hraw
  · exfalso
    unfold parseOp at hraw
    split at hraw
    · rw [Option.map_eq_some_iff] at hraw
      obtain ⟨p, _, hp⟩ := hraw; cases hp
    · split at hraw
      · rw [Option.map_eq_some_iff] at hraw
        obtain ⟨p, _, hp⟩ := hraw; cases hp
      · cases hraw
  · split at hraw
    · exfalso
      unfold parseElemIs at hraw
      rw [Option.bind_eq_some_iff] at hraw
      obtain ⟨p, _, hp⟩ := hraw
      split at hp <;> simp at hp
    · unfold parseAxisIs at hraw
      rw [Option.bind_eq_some_iff] at hraw
      obtain ⟨⟨n', neg', f'⟩, hr, hp⟩ := hraw
      split at hp
      · rename_i ha
        simp only [Option.some.injEq, Q.axisIs.injEq] at hp
        obtain ⟨rfl, rfl, rfl⟩ := hp
        have := rsplitIs_sound hr
        exact ⟨this.1, ha, this.2.1⟩
      · cases hp

/-- **C29** (`is` tests on elements): `"is func"` and `"is not func"` with an accepted function (a
word without spaces and newlines) are parsed as exactly that. -/
theorem C29_element_is (accepted : Str → Bool) (eq : Option Bool) (f : Str) (neg : Bool)
    (ha : accepted f = true) (hf : ' ' ∉ f) (hl : '\n' ∉ f) (he : eq ≠ some false) :
    parse accepted eq ((padIs neg).tail ++ f) = .ok (.elemIs neg f) := by
  have hs : [] ++ padIs neg ++ f = ' ' :: ((padIs neg).tail ++ f) := by cases neg <;> rfl
  have hci : containsIs ((padIs neg).tail ++ f) = [] :=
    containsIs_nil_iff.2 (tail_noIs hf _ hs)
  have hco : containsOp ((padIs neg).tail ++ f) = [] := by
    rw [containsOp_nil_iff]
    rintro pre op v ⟨ho, ht⟩
    obtain ⟨hsp, hi, hne⟩ := op_no_space ho
    cases neg with
    | false =>
      rcases pre with _ | ⟨b1, _ | ⟨b2, _ | ⟨b3, b⟩⟩⟩ <;> simp [padIs, padOp] at ht
      · exact hf (by rw [ht.2.2]; simp)
      · exact hf (by rw [ht.2.2.2]; simp)
    | true =>
      rcases pre with _ | ⟨b1, _ | ⟨b2, _ | ⟨b3, _ | ⟨b4, _ | ⟨b5, _ | ⟨b6, _ | ⟨b7, b⟩⟩⟩⟩⟩⟩⟩ <;>
        simp [padIs, padOp] at ht
      · simp only [ops, List.mem_cons, List.not_mem_nil, or_false] at ho
        rcases ho with rfl | rfl | rfl | rfl | rfl | rfl <;> simp at ht
      · exact hf (by rw [ht.2.2.2.2.2.2]; simp)
      · exact hf (by rw [ht.2.2.2.2.2.2.2]; simp)
  have hst : startsIs ((padIs neg).tail ++ f) = some (neg, f) := by
    unfold startsIs
    cases neg with
    | true =>
      rw [if_pos]
      · simp [padIs, dotStar_self hl]
      · exact List.isPrefixOf_iff_prefix.2 ⟨f, rfl⟩
    | false =>
      rw [if_neg, if_pos]
      · simp [padIs, dotStar_self hl]
      · exact List.isPrefixOf_iff_prefix.2 ⟨f, rfl⟩
      · intro hc
        obtain ⟨suf, h1⟩ := List.isPrefixOf_iff_prefix.1 hc
        simp [padIs] at h1
        exact hf (by rw [← h1]; simp)
  have hraw : parseRaw accepted eq ((padIs neg).tail ++ f) = some (.elemIs neg f) := by
    have hax : isAsAxisName ((padIs neg).tail ++ f) = false := by
      unfold isAsAxisName
      rw [hci, hco]
      simp
    unfold parseRaw
    rw [hax, hci, hco, hst]
    simp [parseElemIs, hst, ha]
  unfold parse
  rw [hraw]
  have he' : (eq == some false) = false := by simpa using he
  simp [he', Q.isElem]

/-! ### Non-vacuity and refutations -/

private theorem noOp_of_chars {s : Str} (h : ∀ c ∈ s, c ≠ '=' ∧ c ≠ '<' ∧ c ≠ '>') : NoOp s := by
  rintro pre op suf ⟨ho, hs⟩
  have hm : ∀ c ∈ op, c ∈ s := by
    intro c hc; rw [hs]; simp [padOp, hc]
  simp only [ops, List.mem_cons, List.not_mem_nil, or_false] at ho
  rcases ho with rfl | rfl | rfl | rfl | rfl | rfl
  · exact (h '=' (hm _ (by simp))).1 rfl
  · exact (h '=' (hm _ (by simp))).1 rfl
  · exact (h '=' (hm _ (by simp))).1 rfl
  · exact (h '>' (hm _ (by simp))).2.2 rfl
  · exact (h '=' (hm _ (by simp))).1 rfl
  · exact (h '<' (hm _ (by simp))).2.1 rfl

/-- `QueryString("age >= 20")`. -/
example : parse (fun _ => false) none "age >= 20".toList =
    .ok (.axisOp "age".toList ">=".toList "20".toList) := by decide
example : parse (fun _ => false) (some false) "age == > 20".toList = .error .InvalidArgumentValue := by
  decide
example : parse (fun f => f == "missing".toList) none "my is == x is not missing".toList =
    .ok (.axisIs "my is == x".toList true "missing".toList) := by decide
/-- The hypotheses of `C29_element_comparison` are met by `"< 3 apples"`. -/
example : parse (fun _ => false) none (['<'] ++ ' ' :: "3 apples".toList) =
    .ok (.elemOp ['<'] "3 apples".toList) := by
  apply C29_element_comparison _ _ _ _ (by decide) _ _ (by decide) (by decide)
  · rw [← containsOp_nil_iff]; decide
  · rw [← containsIs_nil_iff]; decide

/-- Element queries are not faithful across newlines: the value of `"== a⏎b"` is cut at the newline,
and `"is missing⏎x"` is accepted as `"is missing"`. -/
theorem C29_newline_violated :
    parse (fun _ => false) none "== a\nb".toList = .ok (.elemOp "==".toList "a".toList) ∧
    parse (fun f => f == "missing".toList) none "is missing\nx".toList =
      .ok (.elemIs false "missing".toList) := by decide

end Query
end Nimble
