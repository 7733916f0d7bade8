import Verif.Lemmas.Py
import Verif.Model.Config

/-! Helper lemmas for the configuration model. -/

namespace Nimble

section
variable {S O V H : Type} [DecidableEq S] [DecidableEq O] [DecidableEq V]

theorem PyDict.get?_cons {α β : Type} [DecidableEq α] (a : α) (b : β) (d : PyDict α β) (k : α) :
    PyDict.get? ((a, b) :: d) k = if a = k then some b else PyDict.get? d k := rfl

theorem get2_nil (s : S) (o : O) : get2 ([] : PyDict S (PyDict O V)) s o = none := rfl

theorem get2_set2 (d : PyDict S (PyDict O V)) (s : S) (o : O) (v : V) (s' : S) (o' : O) :
    get2 (set2 d s o v) s' o' = if s = s' ∧ o = o' then some v else get2 d s' o' := by
  unfold get2 set2
  rw [PyDict.get?_set]
  by_cases hs : s = s'
  · subst hs
    simp only [if_true, Option.bind_some, true_and]
    rw [PyDict.get?_set]
    by_cases ho : o = o'
    · simp [ho]
    · simp only [if_neg ho]
      cases PyDict.get? d s <;> simp [PyDict.get?_nil]
  · simp [hs]

theorem get2_del2 (d : PyDict S (PyDict O V)) (s : S) (o : O) (s' : S) (o' : O) :
    get2 (del2 d s o) s' o' = if s = s' ∧ o = o' then none else get2 d s' o' := by
  unfold del2
  cases hd : PyDict.get? d s with
  | none =>
    simp only
    by_cases hs : s = s'
    · subst hs; simp [get2, hd]
    · simp [hs]
  | some i =>
    have key : ∀ o', PyDict.get? (PyDict.del i o) o' = if o = o' then none else PyDict.get? i o' := by
      intro o'; rw [PyDict.get?_del]
      try (by_cases h : o = o' <;> simp [h, eq_comm])
    simp only
    split
    · next he =>
      unfold get2
      rw [PyDict.get?_del]
      by_cases hs : s = s'
      · subst hs
        have := key o'
        rw [he] at this
        simp only [if_true, Option.bind_none, true_and, hd, Option.bind_some]
        exact this
      · simp [hs, Ne.symm hs]
    · unfold get2
      rw [PyDict.get?_set]
      by_cases hs : s = s'
      · subst hs
        simp only [if_true, Option.bind_some, true_and, hd]
        exact key o'
      · simp [hs]

/-- Distinct section names, and distinct option names in every section. -/
def Cfg.Distinct (d : PyDict S (PyDict O V)) : Prop :=
  (PyDict.keys d).Nodup ∧ ∀ p ∈ d, (PyDict.keys p.2).Nodup

theorem Cfg.Distinct.inner {d : PyDict S (PyDict O V)} (h : Cfg.Distinct d) {s : S} {i : PyDict O V}
    (hi : PyDict.get? d s = some i) : (PyDict.keys i).Nodup :=
  h.2 _ (PyDict.mem_of_get? hi)

theorem Cfg.distinct_nil : Cfg.Distinct ([] : PyDict S (PyDict O V)) := by
  constructor
  · exact List.nodup_nil
  · simp

theorem PyDict.mem_set {α β : Type} [DecidableEq α] {d : PyDict α β} {k : α} {v : β} {p : α × β}
    (h : p ∈ PyDict.set d k v) : p ∈ d ∨ p = (k, v) := by
  induction d with
  | nil => simp [PyDict.set] at h; exact Or.inr h
  | cons q d ih =>
    obtain ⟨a, b⟩ := q
    unfold PyDict.set at h
    split at h
    · next ha =>
      rcases List.mem_cons.1 h with h | h
      · right; rw [h, ha]
      · left; simp [h]
    · rcases List.mem_cons.1 h with h | h
      · left; simp [h]
      · rcases ih h with h | h
        · left; simp [h]
        · right; exact h

theorem Cfg.Distinct.set {d : PyDict S (PyDict O V)} (h : Cfg.Distinct d) (s : S) {i : PyDict O V}
    (hi : (PyDict.keys i).Nodup) : Cfg.Distinct (PyDict.set d s i) := by
  refine ⟨PyDict.nodup_set h.1 _ _, ?_⟩
  intro p hp
  rcases PyDict.mem_set hp with hp | hp
  · exact h.2 p hp
  · rw [hp]; exact hi

theorem Cfg.Distinct.getD {d : PyDict S (PyDict O V)} (h : Cfg.Distinct d) (s : S) :
    (PyDict.keys ((PyDict.get? d s).getD [])).Nodup := by
  cases hg : PyDict.get? d s with
  | none => exact List.nodup_nil
  | some i => exact h.inner hg

theorem Cfg.Distinct.set2 {d : PyDict S (PyDict O V)} (h : Cfg.Distinct d) (s : S) (o : O) (v : V) :
    Cfg.Distinct (set2 d s o v) :=
  h.set s (PyDict.nodup_set (h.getD s) _ _)

theorem Cfg.Distinct.del {d : PyDict S (PyDict O V)} (h : Cfg.Distinct d) (s : S) :
    Cfg.Distinct (PyDict.del d s) := by
  refine ⟨PyDict.nodup_del h.1 _, ?_⟩
  intro p hp
  exact h.2 p (List.mem_of_mem_filter hp)

theorem Cfg.Distinct.del2 {d : PyDict S (PyDict O V)} (h : Cfg.Distinct d) (s : S) (o : O) :
    Cfg.Distinct (del2 d s o) := by
  unfold Nimble.del2
  cases hg : PyDict.get? d s with
  | none => exact h
  | some i =>
    simp only
    split
    · exact h.del s
    · exact h.set s (PyDict.nodup_del (h.inner hg) _)

/-! ### Reading a section -/

theorem Cfg.addOptions_get? {E : CfgEnv S O V} {ret opts d : PyDict O V}
    (h : Cfg.addOptions E ret opts = .ok d) (o : O) :
    PyDict.get? d o = match PyDict.get? ret o with
      | some v => some v
      | none => (PyDict.get? opts o).bind (fun raw => (E.interp raw).toOption) := by
  induction opts generalizing ret with
  | nil =>
    simp only [Cfg.addOptions, Except.ok.injEq] at h
    subst h
    cases PyDict.get? ret o <;> rfl
  | cons q opts ih =>
    obtain ⟨a, raw⟩ := q
    unfold Cfg.addOptions at h
    cases hi : E.interp raw with
    | error e => rw [hi] at h; simp at h
    | ok v =>
      rw [hi] at h
      simp only at h
      rw [ih h]
      by_cases hr : PyDict.has ret a
      · rw [if_pos hr]
        cases hro : PyDict.get? ret o with
        | some w => rfl
        | none =>
          have : a ≠ o := by
            rintro rfl
            unfold PyDict.has at hr; rw [hro] at hr; simp at hr
          simp [PyDict.get?_cons, this]
      · rw [if_neg hr, PyDict.get?_set]
        by_cases hao : a = o
        · subst hao
          have : PyDict.get? ret a = none := by
            unfold PyDict.has at hr; simpa using hr
          simp [this, PyDict.get?_cons, hi, Except.toOption]
        · simp only [if_neg hao, PyDict.get?_cons]

theorem Cfg.addOptions_ok {E : CfgEnv S O V} {opts : PyDict O V} (ret : PyDict O V)
    (h : ∀ p ∈ opts, ∃ v, E.interp p.2 = .ok v) : ∃ d, Cfg.addOptions E ret opts = .ok d := by
  induction opts generalizing ret with
  | nil => exact ⟨ret, rfl⟩
  | cons q opts ih =>
    obtain ⟨a, raw⟩ := q
    obtain ⟨v, hv⟩ := h (a, raw) (by simp)
    unfold Cfg.addOptions
    rw [hv]
    exact ih _ (fun p hp => h p (by simp [hp]))

theorem Cfg.addOptions_nodup {E : CfgEnv S O V} {ret opts d : PyDict O V}
    (h : Cfg.addOptions E ret opts = .ok d) (hn : (PyDict.keys ret).Nodup) :
    (PyDict.keys d).Nodup := by
  induction opts generalizing ret with
  | nil => simp only [Cfg.addOptions, Except.ok.injEq] at h; subst h; exact hn
  | cons q opts ih =>
    obtain ⟨a, raw⟩ := q
    unfold Cfg.addOptions at h
    cases hi : E.interp raw with
    | error e => rw [hi] at h; simp at h
    | ok v =>
      rw [hi] at h
      refine ih h ?_
      split
      · exact hn
      · exact PyDict.nodup_set hn _ _

/-- Effective option: the changed value, else the interpolated value of the file. -/
theorem Cfg.get_toOption (E : CfgEnv S O V) (c : Cfg S O V H) (s : S) (o : O) :
    (c.get E s o).toOption = match get2 c.changes s o with
      | some v => some v
      | none => (get2 c.parser s o).bind (fun raw => (E.interp raw).toOption) := by
  unfold Cfg.get
  cases h : get2 c.changes s o with
  | some v => rfl
  | none =>
    simp only
    unfold Cfg.parserGet get2
    cases hp : PyDict.get? c.parser s with
    | none => rfl
    | some i =>
      simp only [Option.bind_some]
      cases hq : PyDict.get? i o <;> rfl

/-- The loop of `get()`. -/
theorem Cfg.getAllLoop_spec {E : CfgEnv S O V} {sh : List S} {ch ret ps ch' ret' : PyDict S (PyDict O V)}
    (hps : (PyDict.keys ps).Nodup)
    (hch : ∀ s, PyDict.get? ch s = if s ∈ sh then PyDict.get? ret s else none)
    (h : Cfg.getAllLoop E sh ch ret ps = .ok (ch', ret')) :
    (∀ s, PyDict.get? ch' s = if s ∈ sh then PyDict.get? ret' s else none) ∧
    ∀ s o, get2 ret' s o = match get2 ret s o with
      | some v => some v
      | none => (get2 ps s o).bind (fun raw => (E.interp raw).toOption) := by
  induction ps generalizing ch ret with
  | nil =>
    simp only [Cfg.getAllLoop, Except.ok.injEq, Prod.mk.injEq] at h
    obtain ⟨rfl, rfl⟩ := h
    refine ⟨hch, ?_⟩
    intro s o
    cases get2 ret s o <;> rfl
  | cons q ps ih =>
    obtain ⟨s0, opts⟩ := q
    unfold Cfg.getAllLoop at h
    cases hi : Cfg.addOptions E ((PyDict.get? ret s0).getD []) opts with
    | error e => rw [hi] at h; simp at h
    | ok i =>
      rw [hi] at h
      simp only at h
      have hn : s0 ∉ PyDict.keys ps ∧ (PyDict.keys ps).Nodup := by
        simpa [PyDict.keys] using hps
      have hch' : ∀ s, PyDict.get? (if s0 ∈ sh then PyDict.set ch s0 i else ch) s
          = if s ∈ sh then PyDict.get? (PyDict.set ret s0 i) s else none := by
        intro s
        rw [PyDict.get?_set]
        by_cases h0 : s0 ∈ sh
        · rw [if_pos h0, PyDict.get?_set]
          by_cases hs : s0 = s
          · subst hs; simp [h0]
          · simp only [if_neg hs]; exact hch s
        · rw [if_neg h0, hch s]
          by_cases hs : s0 = s
          · subst hs; simp [h0]
          · simp [hs]
      obtain ⟨h1, h2⟩ := ih hn.2 hch' h
      refine ⟨h1, ?_⟩
      intro s o
      rw [h2 s o]
      unfold get2
      rw [PyDict.get?_set, PyDict.get?_cons]
      by_cases hs : s0 = s
      · subst hs
        have hno : PyDict.get? ps s0 = none := by
          cases hg : PyDict.get? ps s0 with
          | none => rfl
          | some x => exact absurd (PyDict.mem_keys.2 (by rw [hg]; rfl)) hn.1
        simp only [if_true, Option.bind_some, hno, Option.bind_none]
        rw [Cfg.addOptions_get? hi o]
        cases hr : PyDict.get? ret s0 with
        | none =>
          simp only [Option.getD_none, PyDict.get?_nil, Option.bind_none]
          cases (PyDict.get? opts o).bind (fun raw => (E.interp raw).toOption) <;> rfl
        | some r =>
          simp only [Option.getD_some, Option.bind_some]
          cases PyDict.get? r o with
          | some w => rfl
          | none =>
            simp only
            cases (PyDict.get? opts o).bind (fun raw => (E.interp raw).toOption) <;> rfl
      · simp only [if_neg hs]

theorem Cfg.getAllLoop_distinct {E : CfgEnv S O V} {sh : List S} {ch ret ps ch' ret' : PyDict S (PyDict O V)}
    (hch : Cfg.Distinct ch) (hret : Cfg.Distinct ret)
    (h : Cfg.getAllLoop E sh ch ret ps = .ok (ch', ret')) : Cfg.Distinct ch' := by
  induction ps generalizing ch ret with
  | nil =>
    simp only [Cfg.getAllLoop, Except.ok.injEq, Prod.mk.injEq] at h
    obtain ⟨rfl, rfl⟩ := h
    exact hch
  | cons q ps ih =>
    obtain ⟨s0, opts⟩ := q
    unfold Cfg.getAllLoop at h
    cases hi : Cfg.addOptions E ((PyDict.get? ret s0).getD []) opts with
    | error e => rw [hi] at h; simp at h
    | ok i =>
      rw [hi] at h
      have hin := Cfg.addOptions_nodup hi (hret.getD s0)
      refine ih ?_ (hret.set s0 hin) h
      split
      · exact hch.set s0 hin
      · exact hch

/-! ### Writing -/

/-- Writing the options of one section: what is written are options of `opts`; on success all. -/
theorem Cfg.writeOptions_spec {E : CfgEnv S O V} {s0 : S} {p p' : PyDict S (PyDict O V)}
    {opts : PyDict O V} {r : Res Unit} (hn : (PyDict.keys opts).Nodup)
    (h : Cfg.writeOptions E s0 p opts = (p', r)) (s : S) (o : O) :
    (get2 p' s o = get2 p s o ∨ (s = s0 ∧ ∃ v, PyDict.get? opts o = some v ∧ get2 p' s o = some v)) ∧
    (r = .ok () → get2 p' s o = match (if s = s0 then PyDict.get? opts o else none) with
      | some v => some v
      | none => get2 p s o) := by
  induction opts generalizing p with
  | nil =>
    simp only [Cfg.writeOptions, Prod.mk.injEq] at h
    obtain ⟨rfl, rfl⟩ := h
    refine ⟨Or.inl rfl, fun _ => ?_⟩
    simp [PyDict.get?_nil]
  | cons q opts ih =>
    obtain ⟨a, b⟩ := q
    have hn' : a ∉ PyDict.keys opts ∧ (PyDict.keys opts).Nodup := by
      simpa [PyDict.keys] using hn
    unfold Cfg.writeOptions at h
    by_cases hs : E.storable b
    · rw [if_pos hs] at h
      obtain ⟨h1, h2⟩ := ih hn'.2 h
      have hno : PyDict.get? opts a = none := by
        cases hg : PyDict.get? opts a with
        | none => rfl
        | some x => exact absurd (PyDict.mem_keys.2 (by rw [hg]; rfl)) hn'.1
      rw [get2_set2] at h1
      constructor
      · rcases h1 with h1 | ⟨rfl, v, hv, h1⟩
        · by_cases hc : s0 = s ∧ a = o
          · obtain ⟨rfl, rfl⟩ := hc
            right
            exact ⟨rfl, b, by simp [PyDict.get?_cons], by simpa using h1⟩
          · rw [if_neg hc] at h1; exact Or.inl h1
        · right
          refine ⟨rfl, v, ?_, h1⟩
          rw [PyDict.get?_cons]
          by_cases hao : a = o
          · subst hao; rw [hno] at hv; simp at hv
          · simp [hao, hv]
      · intro hr
        rw [h2 hr, get2_set2, PyDict.get?_cons]
        by_cases h0 : s = s0
        · subst h0
          by_cases hao : a = o
          · subst hao; simp [hno]
          · simp [hao]
        · simp [h0, Ne.symm h0]
    · rw [if_neg hs, Prod.mk.injEq] at h
      obtain ⟨rfl, rfl⟩ := h
      refine ⟨Or.inl ?_, fun hr => by simp at hr⟩
      unfold get2
      rw [PyDict.get?_set]
      by_cases h0 : s0 = s
      · subst h0
        cases PyDict.get? p s0 <;> simp [PyDict.get?_nil]
      · simp [h0]

theorem Cfg.writeAll_spec {E : CfgEnv S O V} {p p' ch : PyDict S (PyDict O V)} {r : Res Unit}
    (hn : Cfg.Distinct ch) (h : Cfg.writeAll E p ch = (p', r)) (s : S) (o : O) :
    (get2 p' s o = get2 p s o ∨ (∃ v, get2 ch s o = some v ∧ get2 p' s o = some v)) ∧
    (r = .ok () → get2 p' s o = match get2 ch s o with
      | some v => some v
      | none => get2 p s o) := by
  induction ch generalizing p with
  | nil =>
    simp only [Cfg.writeAll, Prod.mk.injEq] at h
    obtain ⟨rfl, rfl⟩ := h
    exact ⟨Or.inl rfl, fun _ => rfl⟩
  | cons q ch ih =>
    obtain ⟨s0, opts⟩ := q
    have hn0 : s0 ∉ PyDict.keys ch ∧ (PyDict.keys ch).Nodup := by
      simpa [PyDict.keys] using hn.1
    have hnr : Cfg.Distinct ch := ⟨hn0.2, fun p hp => hn.2 p (by simp [hp])⟩
    have hno : PyDict.get? ch s0 = none := by
      cases hg : PyDict.get? ch s0 with
      | none => rfl
      | some x => exact absurd (PyDict.mem_keys.2 (by rw [hg]; rfl)) hn0.1
    have hg : get2 ((s0, opts) :: ch) s o = if s0 = s then PyDict.get? opts o else get2 ch s o := by
      unfold get2; rw [PyDict.get?_cons]; split <;> rfl
    have hch0 : get2 ch s0 o = none := by unfold get2; rw [hno]; rfl
    rw [hg]
    unfold Cfg.writeAll at h
    rcases hw : Cfg.writeOptions E s0 p opts with ⟨p1, r1⟩
    have hsp := Cfg.writeOptions_spec (hn.2 (s0, opts) (by simp)) hw s o
    rw [hw] at h
    cases r1 with
    | error e =>
      simp only [Prod.mk.injEq] at h
      obtain ⟨rfl, rfl⟩ := h
      refine ⟨?_, fun hr => by simp at hr⟩
      rcases hsp.1 with h1 | ⟨rfl, v, hv, h1⟩
      · exact Or.inl h1
      · exact Or.inr ⟨v, by simp [hv], h1⟩
    | ok u =>
      simp only at h
      obtain ⟨h1, h2⟩ := ih hnr h
      have hsp2 := hsp.2 rfl
      by_cases h0 : s0 = s
      · subst h0
        simp only [if_true] at hsp2 ⊢
        rw [hch0] at h1 h2
        simp only at h2
        have h1' : get2 p' s0 o = get2 p1 s0 o := by
          rcases h1 with h1 | ⟨v, hv, _⟩
          · exact h1
          · simp at hv
        refine ⟨?_, fun _ => h1'.trans hsp2⟩
        rw [h1', hsp2]
        cases hq : PyDict.get? opts o with
        | none => left; rfl
        | some w => right; exact ⟨w, rfl, rfl⟩
      · simp only [if_neg h0]
        rw [if_neg (Ne.symm h0)] at hsp2
        simp only at hsp2
        rw [hsp2] at h1 h2
        exact ⟨h1, h2⟩

theorem Cfg.writeOptions_distinct {E : CfgEnv S O V} {s0 : S} {p p' : PyDict S (PyDict O V)}
    {opts : PyDict O V} {r : Res Unit} (hp : Cfg.Distinct p)
    (h : Cfg.writeOptions E s0 p opts = (p', r)) : Cfg.Distinct p' := by
  induction opts generalizing p with
  | nil =>
    simp only [Cfg.writeOptions, Prod.mk.injEq] at h
    obtain ⟨rfl, rfl⟩ := h
    exact hp
  | cons q opts ih =>
    obtain ⟨a, b⟩ := q
    unfold Cfg.writeOptions at h
    split at h
    · exact ih (hp.set2 s0 a b) h
    · rw [Prod.mk.injEq] at h
      obtain ⟨rfl, rfl⟩ := h
      exact hp.set s0 (hp.getD s0)

theorem Cfg.writeAll_distinct {E : CfgEnv S O V} {p p' ch : PyDict S (PyDict O V)} {r : Res Unit}
    (hp : Cfg.Distinct p) (h : Cfg.writeAll E p ch = (p', r)) : Cfg.Distinct p' := by
  induction ch generalizing p with
  | nil =>
    simp only [Cfg.writeAll, Prod.mk.injEq] at h
    obtain ⟨rfl, rfl⟩ := h
    exact hp
  | cons q ch ih =>
    obtain ⟨s0, opts⟩ := q
    unfold Cfg.writeAll at h
    rcases hw : Cfg.writeOptions E s0 p opts with ⟨p1, r1⟩
    rw [hw] at h
    have hp1 := Cfg.writeOptions_distinct hp hw
    cases r1 with
    | error e =>
      simp only [Prod.mk.injEq] at h
      obtain ⟨rfl, rfl⟩ := h
      exact hp1
    | ok u => exact ih hp1 h

/-! ### What is saved and what remains -/

/-- Whether `saveChanges(w)` concerns an option. -/
def Cfg.What.covers : Cfg.What S O → S → O → Bool
  | .all, _, _ => true
  | .sec s, s', _ => decide (s = s')
  | .opt s o, s', o' => decide (s = s' ∧ o = o')

theorem Cfg.toSave_spec (c : Cfg S O V H) (w : Cfg.What S O) (s : S) (o : O) :
    get2 (c.toSave w).1 s o = (if w.covers s o then get2 c.changes s o else none) ∧
    get2 (c.toSave w).2 s o = (if w.covers s o then none else get2 c.changes s o) := by
  cases w with
  | all => simp [Cfg.toSave, Cfg.What.covers, get2_nil]
  | sec s0 =>
    have hc : (Cfg.What.sec s0 : Cfg.What S O).covers s o = decide (s0 = s) := rfl
    rw [hc]
    cases hg : PyDict.get? c.changes s0 with
    | none =>
      have hT : c.toSave (.sec s0 : Cfg.What S O) = ([], c.changes) := by simp [Cfg.toSave, hg]
      rw [hT]
      by_cases h : s0 = s
      · subst h; simp [get2, hg, PyDict.get?_nil]
      · simp [h, get2_nil]
    | some opts =>
      have hT : c.toSave (.sec s0 : Cfg.What S O) = ([(s0, opts)], PyDict.del c.changes s0) := by
        simp [Cfg.toSave, hg]
      rw [hT]
      unfold get2
      rw [PyDict.get?_cons, PyDict.get?_del, PyDict.get?_nil]
      by_cases h : s0 = s
      · subst h; simp [hg]
      · simp [h, Ne.symm h]
  | opt s0 o0 =>
    have hc : (Cfg.What.opt s0 o0).covers s o = decide (s0 = s ∧ o0 = o) := rfl
    rw [hc]
    cases hg : get2 c.changes s0 o0 with
    | none =>
      have hT : c.toSave (.opt s0 o0) = ([], c.changes) := by simp [Cfg.toSave, hg]
      rw [hT]
      by_cases h : s0 = s ∧ o0 = o
      · obtain ⟨rfl, rfl⟩ := h; simp [hg, get2_nil]
      · simp [h, get2_nil]
    | some v =>
      have hT : c.toSave (.opt s0 o0) = ([(s0, [(o0, v)])], del2 c.changes s0 o0) := by
        simp [Cfg.toSave, hg]
      rw [hT]
      simp only
      rw [get2_del2]
      refine ⟨?_, by simp⟩
      unfold get2
      rw [PyDict.get?_cons, PyDict.get?_nil]
      by_cases h : s0 = s
      · subst h
        by_cases h2 : o0 = o
        · subst h2
          have : (PyDict.get? c.changes s0).bind (fun i => PyDict.get? i o0) = some v := hg
          simp [PyDict.get?_cons, this]
        · simp [PyDict.get?_cons, PyDict.get?_nil, h2]
      · simp [h]

theorem Cfg.toSave_distinct {c : Cfg S O V H} (h : Cfg.Distinct c.changes) (w : Cfg.What S O) :
    Cfg.Distinct (c.toSave w).1 ∧ Cfg.Distinct (c.toSave w).2 := by
  cases w with
  | all => exact ⟨h, Cfg.distinct_nil⟩
  | sec s0 =>
    cases hg : PyDict.get? c.changes s0 with
    | none =>
      have hT : c.toSave (.sec s0 : Cfg.What S O) = ([], c.changes) := by simp [Cfg.toSave, hg]
      rw [hT]; exact ⟨Cfg.distinct_nil, h⟩
    | some opts =>
      have hT : c.toSave (.sec s0 : Cfg.What S O) = ([(s0, opts)], PyDict.del c.changes s0) := by
        simp [Cfg.toSave, hg]
      rw [hT]
      refine ⟨⟨by simp [PyDict.keys], ?_⟩, h.del s0⟩
      intro p hp
      rw [List.mem_singleton.1 hp]
      exact h.inner hg
  | opt s0 o0 =>
    cases hg : get2 c.changes s0 o0 with
    | none =>
      have hT : c.toSave (.opt s0 o0) = ([], c.changes) := by simp [Cfg.toSave, hg]
      rw [hT]; exact ⟨Cfg.distinct_nil, h⟩
    | some v =>
      have hT : c.toSave (.opt s0 o0) = ([(s0, [(o0, v)])], del2 c.changes s0 o0) := by
        simp [Cfg.toSave, hg]
      rw [hT]
      refine ⟨⟨by simp [PyDict.keys], ?_⟩, h.del2 s0 o0⟩
      intro p hp
      rw [List.mem_singleton.1 hp]
      simp [PyDict.keys]

end
end Nimble
