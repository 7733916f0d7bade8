import Verif.Lemmas.Config

/-!
# C25, C26: configuration

`Cfg.get`/`set`/`saveChanges`/`getAll`/`getSection`/`hook` are the public methods of
`nimble.settings`.  `CfgEnv` abstracts reading (`interp`) and writing (`storable`) of values by
`ConfigParser` and which section/option pairs are allowed.
-/

namespace Nimble

section
variable {S O V H : Type} [DecidableEq S] [DecidableEq O] [DecidableEq V]

/-- A value without interpolation syntax: it reads as it was written. -/
def CfgEnv.PlainValue (E : CfgEnv S O V) (v : V) : Prop := E.interp v = .ok v

/-- Every value held by the session or by the parser is plain. -/
def Cfg.Plain (E : CfgEnv S O V) (c : Cfg S O V H) : Prop :=
  ∀ s o v, get2 c.changes s o = some v ∨ get2 c.parser s o = some v → E.PlainValue v

/-- Dictionaries have distinct keys. -/
def Cfg.Ok (c : Cfg S O V H) : Prop := Cfg.Distinct c.changes ∧ Cfg.Distinct c.parser

theorem Cfg.callHook_changes (c : Cfg S O V H) (s : S) (o : O) (v : V) :
    (c.callHook s o v).changes = c.changes ∧ (c.callHook s o v).parser = c.parser ∧
    (c.callHook s o v).hooks = c.hooks := by
  unfold Cfg.callHook
  split <;> simp

/-- The state after `set`: unchanged when it raises; otherwise the value was put among the changes
or, in the branch that drops it, the file already reads as `v`. -/
theorem Cfg.set_cases (E : CfgEnv S O V) (c c' : Cfg S O V H) (s : S) (o : O) (v : V) (r : Res Unit)
    (h : c.set E s o v = (c', r)) :
    (∃ e, r = .error e ∧ c' = c) ∨
    (r = .ok () ∧ c.parserGet E s o = .ok v ∧ (get2 c.changes s o).isSome ∧
      c' = { c with changes := del2 c.changes s o }) ∨
    (r = .ok () ∧ ¬(c.parserGet E s o = .ok v ∧ (get2 c.changes s o).isSome) ∧ E.allowed s o = .ok () ∧
      c' = Cfg.callHook { c with changes := set2 c.changes s o v } s o v) := by
  have hstore : c.store E s o v = (c', r) → (∃ e, r = .error e ∧ c' = c) ∨
      (r = .ok () ∧ E.allowed s o = .ok () ∧
        c' = Cfg.callHook { c with changes := set2 c.changes s o v } s o v) := by
    unfold Cfg.store
    cases ha : E.allowed s o with
    | error e =>
      intro h; simp only [Prod.mk.injEq] at h; exact Or.inl ⟨e, h.2.symm, h.1.symm⟩
    | ok u =>
      intro h; simp only [Prod.mk.injEq] at h; exact Or.inr ⟨h.2.symm, rfl, h.1.symm⟩
  have fin : ¬(c.parserGet E s o = .ok v ∧ (get2 c.changes s o).isSome) → c.store E s o v = (c', r) →
      (∃ e, r = .error e ∧ c' = c) ∨
    (r = .ok () ∧ c.parserGet E s o = .ok v ∧ (get2 c.changes s o).isSome ∧
      c' = { c with changes := del2 c.changes s o }) ∨
    (r = .ok () ∧ ¬(c.parserGet E s o = .ok v ∧ (get2 c.changes s o).isSome) ∧ E.allowed s o = .ok () ∧
      c' = Cfg.callHook { c with changes := set2 c.changes s o v } s o v) := by
    intro hn hs
    rcases hstore hs with h1 | ⟨h1, h2, h3⟩
    · exact Or.inl h1
    · exact Or.inr (Or.inr ⟨h1, hn, h2, h3⟩)
  unfold Cfg.set at h
  cases hp : c.parserGet E s o with
  | error e =>
    rw [hp] at h fin
    have hn : ¬((.error e : Res V) = .ok v ∧ (get2 c.changes s o).isSome) := by simp
    cases e with
    | NoSectionError => exact fin hn h
    | NoOptionError => exact fin hn h
    | _ =>
      simp only [Prod.mk.injEq] at h
      exact Or.inl ⟨_, h.2.symm, h.1.symm⟩
  | ok w =>
    rw [hp] at h fin
    simp only at h
    split at h
    · next hw =>
      simp only [Prod.mk.injEq] at h
      exact Or.inr (Or.inl ⟨h.2.symm, by rw [hw.1], hw.2, h.1.symm⟩)
    · next hw =>
      refine fin ?_ h
      rintro ⟨h1, h2⟩
      exact hw ⟨by simpa using h1, h2⟩

theorem Cfg.set_cases' (E : CfgEnv S O V) (c : Cfg S O V H) (s : S) (o : O) (v : V) :
    (∃ e, (c.set E s o v).2 = .error e ∧ (c.set E s o v).1 = c) ∨
    ((c.set E s o v).2 = .ok () ∧ c.parserGet E s o = .ok v ∧ (get2 c.changes s o).isSome ∧
      (c.set E s o v).1 = { c with changes := del2 c.changes s o }) ∨
    ((c.set E s o v).2 = .ok () ∧ ¬(c.parserGet E s o = .ok v ∧ (get2 c.changes s o).isSome) ∧
      E.allowed s o = .ok () ∧
      (c.set E s o v).1 = Cfg.callHook { c with changes := set2 c.changes s o v } s o v) := by
  rcases h : c.set E s o v with ⟨c', r⟩
  exact Cfg.set_cases E c c' s o v r h

/-- C25: after a successful `set(section, option, v)` `get(section, option)` returns `v` and `get`
of every other option answers (or raises) as before; a refused `set` changes nothing. No assumption
on the state or the values. -/
theorem C25_get_after_set (E : CfgEnv S O V) (c : Cfg S O V H) (s : S) (o : O) (v : V) :
    ((c.set E s o v).2 = .ok () →
      (c.set E s o v).1.get E s o = .ok v ∧
      ∀ s' o', (s', o') ≠ (s, o) → (c.set E s o v).1.get E s' o' = c.get E s' o') ∧
    (∀ e, (c.set E s o v).2 = .error e → (c.set E s o v).1 = c) := by
  rcases Cfg.set_cases' E c s o v with ⟨e, h1, h2⟩ | ⟨h1, h2, h3, h4⟩ | ⟨h1, h2, h3, h4⟩
  · constructor
    · intro h; rw [h1] at h; simp at h
    · intro _ _; exact h2
  · constructor
    · intro _
      rw [h4]
      constructor
      · unfold Cfg.get
        simp only
        rw [get2_del2]
        simpa [Cfg.parserGet] using h2
      · intro s' o' hne
        unfold Cfg.get
        simp only
        rw [get2_del2]
        have : ¬(s = s' ∧ o = o') := by rintro ⟨rfl, rfl⟩; exact hne rfl
        rw [if_neg this]
        rfl
    · intro e h; rw [h1] at h; simp at h
  · constructor
    · intro _
      rw [h4]
      obtain ⟨hc, hp, _⟩ := Cfg.callHook_changes { c with changes := set2 c.changes s o v } s o v
      constructor
      · unfold Cfg.get
        rw [hc]
        simp only
        rw [get2_set2]
        simp
      · intro s' o' hne
        unfold Cfg.get
        rw [hc]
        simp only
        rw [get2_set2]
        have : ¬(s = s' ∧ o = o') := by rintro ⟨rfl, rfl⟩; exact hne rfl
        rw [if_neg this]
        unfold Cfg.parserGet
        rw [hp]
    · intro e h; rw [h1] at h; simp at h

/-- C25: `get(section)` agrees with `get(section, option)` option by option. -/
theorem C25_get_section (E : CfgEnv S O V) (c : Cfg S O V H) (s : S) (d : PyDict O V)
    (h : c.getSection E s = .ok d) (o : O) : PyDict.get? d o = (c.get E s o).toOption := by
  rw [Cfg.get_toOption]
  unfold Cfg.getSection at h
  cases hp : PyDict.get? c.parser s with
  | some opts =>
    rw [hp] at h
    rw [Cfg.addOptions_get? h o]
    unfold get2
    rw [hp]
    cases hc : PyDict.get? c.changes s <;> simp [PyDict.get?_nil]
  | none =>
    rw [hp] at h
    simp only at h
    split at h
    · simp at h
    · simp only [Except.ok.injEq] at h
      subst h
      unfold get2
      rw [hp]
      cases hc : PyDict.get? c.changes s with
      | none => simp [PyDict.get?_nil]
      | some i => simp only [Option.getD_some, Option.bind_some]; cases PyDict.get? i o <;> rfl

/-- `get(section)` answers whenever the section exists and every value in it can be read. -/
theorem C25_get_section_answers (E : CfgEnv S O V) (c : Cfg S O V H) (s : S)
    (hex : (∃ o, (c.get E s o).toOption ≠ none) ∨ (PyDict.get? c.parser s).isSome)
    (hread : ∀ i, PyDict.get? c.parser s = some i → ∀ p ∈ i, ∃ v, E.interp p.2 = .ok v) :
    ∃ d, c.getSection E s = .ok d := by
  unfold Cfg.getSection
  cases hp : PyDict.get? c.parser s with
  | some opts => exact Cfg.addOptions_ok _ (hread opts hp)
  | none =>
    simp only
    split
    · next he =>
      exfalso
      rcases hex with ⟨o, ho⟩ | h
      · apply ho
        rw [Cfg.get_toOption]
        unfold get2
        rw [hp]
        cases hc : PyDict.get? c.changes s with
        | none => rfl
        | some i =>
          rw [hc] at he
          simp only [Option.getD_some] at he
          simp [he, PyDict.get?_nil]
      · rw [hp] at h; simp at h
    · exact ⟨_, rfl⟩

/-- C25: `get()` agrees with `get(section, option)` option by option, and (although it adds options
of the file to the dictionary of changes) no `get` answers differently afterwards. -/
theorem C25_get_all (E : CfgEnv S O V) (c : Cfg S O V H) (hok : c.Ok) (d : PyDict S (PyDict O V))
    (h : (c.getAll E).2 = .ok d) (s : S) (o : O) :
    get2 d s o = (c.get E s o).toOption ∧
    ((c.getAll E).1.get E s o).toOption = (c.get E s o).toOption := by
  unfold Cfg.getAll at h ⊢
  cases hl : Cfg.getAllLoop E (PyDict.keys c.changes) c.changes c.changes c.parser with
  | error e => rw [hl] at h; simp at h
  | ok x =>
    obtain ⟨ch, ret⟩ := x
    rw [hl] at h
    simp only [Except.ok.injEq] at h
    subst h
    simp only
    have hch : ∀ s, PyDict.get? c.changes s
        = if s ∈ PyDict.keys c.changes then PyDict.get? c.changes s else none := by
      intro s
      by_cases hm : s ∈ PyDict.keys c.changes
      · simp [hm]
      · rw [if_neg hm]
        cases hg : PyDict.get? c.changes s with
        | none => rfl
        | some x => exact absurd (PyDict.mem_keys.2 (by rw [hg]; rfl)) hm
    obtain ⟨h1, h2⟩ := Cfg.getAllLoop_spec hok.2.1 hch hl
    have hret : get2 ret s o = (c.get E s o).toOption := by rw [h2 s o, Cfg.get_toOption]
    refine ⟨hret, ?_⟩
    rw [Cfg.get_toOption]
    simp only
    have hg : get2 ch s o = if s ∈ PyDict.keys c.changes then get2 ret s o else none := by
      unfold get2; rw [h1 s]; split <;> rfl
    rw [hg]
    by_cases hm : s ∈ PyDict.keys c.changes
    · rw [if_pos hm, hret, Cfg.get_toOption]
      cases get2 c.changes s o with
      | some v => rfl
      | none =>
        simp only
        cases (get2 c.parser s o).bind (fun raw => (E.interp raw).toOption) <;> rfl
    · rw [if_neg hm, Cfg.get_toOption]
      have : get2 c.changes s o = none := by
        unfold get2; rw [hch s, if_neg hm]; rfl
      rw [this]

/-- C25 (partial: for values without interpolation syntax): `saveChanges`, of everything, of a
section or of one option, and whether it succeeds or raises, does not change what any `get`
returns. -/
theorem C25_save_unobservable_partial (E : CfgEnv S O V) (c : Cfg S O V H) (hok : c.Ok)
    (hpl : ∀ s o v, get2 c.changes s o = some v → E.PlainValue v) (w : Cfg.What S O) (s : S) (o : O) :
    ((c.saveChanges E w).1.get E s o).toOption = (c.get E s o).toOption := by
  unfold Cfg.saveChanges
  split
  · rfl
  · rcases hw : Cfg.writeAll E c.parser (c.toSave w).1 with ⟨p, r⟩
    obtain ⟨h1, h2⟩ := Cfg.writeAll_spec (Cfg.toSave_distinct hok.1 w).1 hw s o
    obtain ⟨t1, t2⟩ := Cfg.toSave_spec c w s o
    cases r with
    | error e =>
      simp only
      rw [Cfg.get_toOption, Cfg.get_toOption]
      simp only
      cases hc : get2 c.changes s o with
      | some v => rfl
      | none =>
        simp only
        rw [hc] at t1
        have : get2 (c.toSave w).1 s o = none := by rw [t1]; split <;> rfl
        rw [this] at h1
        rcases h1 with h1 | ⟨v, hv, _⟩
        · rw [h1]
        · simp at hv
    | ok u =>
      simp only
      rw [Cfg.get_toOption, Cfg.get_toOption]
      simp only
      rw [t2]
      have h2 := h2 rfl
      rw [t1] at h2
      by_cases hcov : w.covers s o = true
      · simp only [hcov, if_true] at h2 ⊢
        rw [h2]
        cases hc : get2 c.changes s o with
        | some v => 
          have := hpl s o v hc
          unfold CfgEnv.PlainValue at this
          simp [this, Except.toOption]
        | none => rfl
      · have hcov : w.covers s o = false := by simpa using hcov
        simp only [hcov] at h2 ⊢
        simp only [Bool.false_eq_true, if_false] at h2 ⊢
        rw [h2]

/-- C25: after a successful `saveChanges` the file holds every saved value, keeps whatever the
parser held otherwise, and what was not to be saved stays unsaved. -/
theorem C25_save_file (E : CfgEnv S O V) (c : Cfg S O V H) (hok : c.Ok) (hch : c.changes ≠ [])
    (w : Cfg.What S O) (h : (c.saveChanges E w).2 = .ok ()) (s : S) (o : O) :
    (w.covers s o = true → ∀ v, get2 c.changes s o = some v →
      get2 (c.saveChanges E w).1.file s o = some v ∧ get2 (c.saveChanges E w).1.changes s o = none) ∧
    (w.covers s o = false ∨ get2 c.changes s o = none →
      get2 (c.saveChanges E w).1.file s o = get2 c.parser s o ∧
      get2 (c.saveChanges E w).1.changes s o = get2 c.changes s o) := by
  unfold Cfg.saveChanges at h ⊢
  rw [if_neg hch] at h ⊢
  rcases hw : Cfg.writeAll E c.parser (c.toSave w).1 with ⟨p, r⟩
  rw [hw] at h
  cases r with
  | error e => simp at h
  | ok u =>
    obtain ⟨h1, h2⟩ := Cfg.writeAll_spec (Cfg.toSave_distinct hok.1 w).1 hw s o
    obtain ⟨t1, t2⟩ := Cfg.toSave_spec c w s o
    have h2 := h2 rfl
    rw [t1] at h2
    simp only
    rw [t2, h2]
    constructor
    · intro hcov v hv
      simp [hcov, hv]
    · intro hor
      rcases hor with hcov | hn
      · simp [hcov]
      · simp [hn]

/-- C25 (partial: plain values): after a successful `saveChanges()` a new session started from the
file answers every `get` as the saving session does. -/
theorem C25_reload_partial (E : CfgEnv S O V) (c : Cfg S O V H) (hok : c.Ok) (hch : c.changes ≠ [])
    (hpl : ∀ s o v, get2 c.changes s o = some v → E.PlainValue v)
    (h : (c.saveChanges E .all).2 = .ok ()) (s : S) (o : O) :
    ((Cfg.load (c.saveChanges E .all).1.file : Cfg S O V H).get E s o).toOption
      = (c.get E s o).toOption := by
  obtain ⟨h1, h2⟩ := C25_save_file E c hok hch .all h s o
  rw [Cfg.get_toOption, Cfg.get_toOption]
  simp only [Cfg.load, get2_nil]
  cases hc : get2 c.changes s o with
  | some v =>
    rw [(h1 rfl v hc).1]
    have := hpl s o v hc
    unfold CfgEnv.PlainValue at this
    simp [this, Except.toOption]
  | none => rw [(h2 (Or.inr hc)).1]

/-- C25: after a successful `setDefault` of a plain value `get` returns it, and so does the saved
part of the configuration alone (a new session started from it). -/
theorem C25_setDefault (E : CfgEnv S O V) (c : Cfg S O V H) (hok : c.Ok) (s : S) (o : O) (v : V)
    (hpl : E.PlainValue v) (h : (c.setDefault E s o v).2 = .ok ()) :
    ((c.setDefault E s o v).1.get E s o).toOption = some v ∧
    ((Cfg.load (c.setDefault E s o v).1.parser : Cfg S O V H).get E s o).toOption = some v := by
  suffices hgoal : get2 (c.setDefault E s o v).1.changes s o = none ∧
      (get2 (c.setDefault E s o v).1.parser s o).bind (fun raw => (E.interp raw).toOption) = some v by
    rw [Cfg.get_toOption, Cfg.get_toOption, hgoal.1]
    simp only [Cfg.load, get2_nil]
    exact ⟨hgoal.2, hgoal.2⟩
  unfold Cfg.setDefault at h ⊢
  rcases hs : c.set E s o v with ⟨c', r⟩
  rw [hs] at h
  cases r with
  | error e => simp at h
  | ok u =>
    simp only at h ⊢
    have hgo : (c'.get E s o).toOption = some v := by
      have hg := ((C25_get_after_set E c s o v).1 (by rw [hs])).1
      rw [hs] at hg
      simp only at hg
      rw [hg]; rfl
    rw [Cfg.get_toOption] at hgo
    unfold Cfg.saveChanges at h ⊢
    split
    · next he =>
      have hn : get2 c'.changes s o = none := by rw [he]; rfl
      rw [hn] at hgo
      exact ⟨hn, hgo⟩
    · next he =>
      rw [if_neg he] at h
      rcases hw : Cfg.writeAll E c'.parser (c'.toSave (.opt s o)).1 with ⟨p, r⟩
      rw [hw] at h
      have hd : Cfg.Distinct c'.changes := by
        rcases Cfg.set_cases E c c' s o v _ hs with ⟨e, h1, _⟩ | ⟨_, _, _, h4⟩ | ⟨_, _, _, h4⟩
        · simp at h1
        · rw [h4]; exact hok.1.del2 s o
        · rw [h4, (Cfg.callHook_changes _ s o v).1]; exact hok.1.set2 s o v
      obtain ⟨h1, h2⟩ := Cfg.writeAll_spec (Cfg.toSave_distinct hd (.opt s o)).1 hw s o
      obtain ⟨t1, t2⟩ := Cfg.toSave_spec c' (.opt s o) s o
      have hcov : (Cfg.What.opt s o).covers s o = true := by simp [Cfg.What.covers]
      rw [hcov] at t1 t2
      simp only [if_true] at t1 t2
      cases r with
      | error e => simp at h
      | ok u =>
        simp only
        have h2 := h2 rfl
        refine ⟨t2, ?_⟩
        rw [h2, t1]
        cases hc : get2 c'.changes s o with
        | some x =>
          rw [hc] at hgo
          have : x = v := by simpa using hgo
          subst this
          unfold CfgEnv.PlainValue at hpl
          simp [hpl, Except.toOption]
        | none => rw [hc] at hgo; exact hgo

/-! ### Histories -/

theorem Cfg.step_ok (E : CfgEnv S O V) {c : Cfg S O V H} (hok : c.Ok) (op : Cfg.Op S O V H) :
    (c.step E op).1.Ok := by
  cases op with
  | set s o v =>
    unfold Cfg.step
    rcases Cfg.set_cases' E c s o v with ⟨e, _, h⟩ | ⟨_, _, _, h⟩ | ⟨_, _, _, h⟩
    · rw [h]; exact hok
    · rw [h]; exact ⟨hok.1.del2 s o, hok.2⟩
    · rw [h]
      obtain ⟨h1, h2, _⟩ := Cfg.callHook_changes { c with changes := set2 c.changes s o v } s o v
      unfold Cfg.Ok
      rw [h1, h2]
      exact ⟨hok.1.set2 s o v, hok.2⟩
  | save w =>
    unfold Cfg.step Cfg.saveChanges
    simp only
    split
    · exact hok
    · rcases hw : Cfg.writeAll E c.parser (c.toSave w).1 with ⟨p, r⟩
      have := Cfg.writeAll_distinct hok.2 hw
      cases r with
      | error e => exact ⟨hok.1, this⟩
      | ok u => exact ⟨(Cfg.toSave_distinct hok.1 w).2, this⟩
  | getAll =>
    unfold Cfg.step Cfg.getAll
    simp only
    cases hl : Cfg.getAllLoop E (PyDict.keys c.changes) c.changes c.changes c.parser with
    | error e => exact hok
    | ok x =>
      obtain ⟨ch, ret⟩ := x
      exact ⟨Cfg.getAllLoop_distinct hok.1 hok.1 hl, hok.2⟩
  | hook s o h =>
    unfold Cfg.step Cfg.hook
    simp only
    split
    · exact hok
    · exact hok

/-- Every call keeps the values plain if the values set are. -/
theorem Cfg.step_plain (E : CfgEnv S O V) {c : Cfg S O V H} (hok : c.Ok) (hpl : c.Plain E)
    (op : Cfg.Op S O V H) (hop : ∀ s o v, op = .set s o v → E.PlainValue v) :
    (c.step E op).1.Plain E := by
  cases op with
  | set s o v =>
    unfold Cfg.step
    have hv := hop s o v rfl
    rcases Cfg.set_cases' E c s o v with ⟨e, _, h⟩ | ⟨_, _, _, h⟩ | ⟨_, _, _, h⟩
    · rw [h]; exact hpl
    · rw [h]
      intro s' o' v' hv'
      simp only [get2_del2] at hv'
      apply hpl s' o' v'
      rcases hv' with hv' | hv'
      · split at hv'
        · simp at hv'
        · exact Or.inl hv'
      · exact Or.inr hv'
    · rw [h]
      obtain ⟨h1, h2, _⟩ := Cfg.callHook_changes { c with changes := set2 c.changes s o v } s o v
      intro s' o' v' hv'
      rw [h1, h2] at hv'
      simp only [get2_set2] at hv'
      rcases hv' with hv' | hv'
      · split at hv'
        · simp only [Option.some.injEq] at hv'; rw [← hv']; exact hv
        · exact hpl s' o' v' (Or.inl hv')
      · exact hpl s' o' v' (Or.inr hv')
  | save w =>
    unfold Cfg.step Cfg.saveChanges
    simp only
    split
    · exact hpl
    · rcases hw : Cfg.writeAll E c.parser (c.toSave w).1 with ⟨p, r⟩
      have hp : ∀ s o v, get2 p s o = some v → E.PlainValue v := by
        intro s o v hv
        rcases (Cfg.writeAll_spec (Cfg.toSave_distinct hok.1 w).1 hw s o).1 with h | ⟨x, hx, h⟩
        · rw [h] at hv; exact hpl s o v (Or.inr hv)
        · rw [h] at hv
          rw [(Cfg.toSave_spec c w s o).1] at hx
          split at hx
          · simp only [Option.some.injEq] at hv; subst hv; exact hpl s o _ (Or.inl hx)
          · simp at hx
      cases r with
      | error e =>
        intro s o v hv
        rcases hv with hv | hv
        · exact hpl s o v (Or.inl hv)
        · exact hp s o v hv
      | ok u =>
        intro s o v hv
        rcases hv with hv | hv
        · simp only [(Cfg.toSave_spec c w s o).2] at hv
          split at hv
          · simp at hv
          · exact hpl s o v (Or.inl hv)
        · exact hp s o v hv
  | getAll =>
    unfold Cfg.step
    simp only
    cases hr : (c.getAll E).2 with
    | error e =>
      have : (c.getAll E).1 = c := by
        unfold Cfg.getAll at hr ⊢
        cases hl : Cfg.getAllLoop E (PyDict.keys c.changes) c.changes c.changes c.parser with
        | error e => rfl
        | ok x => rw [hl] at hr; simp at hr
      rw [this]; exact hpl
    | ok d =>
      have hall := C25_get_all E c hok d hr
      have hpar : (c.getAll E).1.parser = c.parser := by
        unfold Cfg.getAll
        cases Cfg.getAllLoop E (PyDict.keys c.changes) c.changes c.changes c.parser <;> rfl
      intro s o v hv
      rw [hpar] at hv
      rcases hv with hv | hv
      · have h2 := (hall s o).2
        rw [Cfg.get_toOption, hv] at h2
        have h3 : (c.get E s o).toOption = some v := h2.symm
        rw [Cfg.get_toOption] at h3
        cases hc : get2 c.changes s o with
        | some x =>
          rw [hc] at h3
          simp only [Option.some.injEq] at h3
          subst h3
          exact hpl s o _ (Or.inl hc)
        | none =>
          rw [hc] at h3
          simp only at h3
          cases hp : get2 c.parser s o with
          | none => rw [hp] at h3; simp at h3
          | some raw =>
            rw [hp] at h3
            have hraw := hpl s o raw (Or.inr hp)
            unfold CfgEnv.PlainValue at hraw
            simp only [Option.bind_some, hraw, Except.toOption, Option.some.injEq] at h3
            subst h3
            exact hraw
      · exact hpl s o v (Or.inr hv)
  | hook s o h =>
    unfold Cfg.step Cfg.hook
    simp only
    split
    · exact hpl
    · exact hpl

/-- The specification: an option has the value last set successfully, else the one it had. -/
def lastSet (E : CfgEnv S O V) (s : S) (o : O) : Cfg S O V H → Option V → List (Cfg.Op S O V H) → Option V
  | _, cur, [] => cur
  | c, cur, .set s' o' v :: ops =>
    lastSet E s o (c.step E (.set s' o' v)).1
      (if (s', o') = (s, o) ∧ (c.step E (.set s' o' v)).2.isOk then some v else cur) ops
  | c, cur, op :: ops => lastSet E s o (c.step E op).1 cur ops

theorem Cfg.step_get (E : CfgEnv S O V) {c : Cfg S O V H} (hok : c.Ok) (hpl : c.Plain E)
    (op : Cfg.Op S O V H) (hns : ∀ s o v, op ≠ .set s o v) (s : S) (o : O) :
    ((c.step E op).1.get E s o).toOption = (c.get E s o).toOption := by
  cases op with
  | set s' o' v => exact absurd rfl (hns s' o' v)
  | save w =>
    exact C25_save_unobservable_partial E c hok (fun s o v h => hpl s o v (Or.inl h)) w s o
  | getAll =>
    unfold Cfg.step
    simp only
    cases hr : (c.getAll E).2 with
    | error e =>
      have : (c.getAll E).1 = c := by
        unfold Cfg.getAll at hr ⊢
        cases hl : Cfg.getAllLoop E (PyDict.keys c.changes) c.changes c.changes c.parser with
        | error e => rfl
        | ok x => rw [hl] at hr; simp at hr
      rw [this]
    | ok d => exact (C25_get_all E c hok d hr s o).2
  | hook s' o' h =>
    unfold Cfg.step Cfg.hook
    simp only
    split <;> rfl

/-- C25 (partial: plain values): through any history of `set`, `saveChanges` (successful or not),
`get()` and `hook` calls, `get(section, option)` returns the value last set successfully, or else
what it returned at the beginning. -/
theorem C25_history_partial (E : CfgEnv S O V) (c : Cfg S O V H) (hok : c.Ok) (hpl : c.Plain E)
    (ops : List (Cfg.Op S O V H)) (hops : ∀ s o v, .set s o v ∈ ops → E.PlainValue v) (s : S) (o : O) :
    ((Cfg.run E c ops).get E s o).toOption = lastSet E s o c (c.get E s o).toOption ops := by
  induction ops generalizing c with
  | nil => rfl
  | cons op ops ih =>
    have hok' := Cfg.step_ok E hok op
    have hpl' := Cfg.step_plain E hok hpl op (fun s o v h => hops s o v (by simp [h]))
    have ih' := ih _ hok' hpl' (fun s o v h => hops s o v (by simp [h]))
    show ((Cfg.run E (c.step E op).1 ops).get E s o).toOption = _
    rw [ih']
    cases op with
    | set s' o' v =>
      show _ = lastSet E s o (c.step E (.set s' o' v)).1
        (if (s', o') = (s, o) ∧ (c.step E (.set s' o' v)).2.isOk then some v
          else (c.get E s o).toOption) ops
      congr 1
      have hs := C25_get_after_set E c s' o' v
      show ((c.set E s' o' v).1.get E s o).toOption = _
      have he : (c.step E (.set s' o' v)).2 = (c.set E s' o' v).2 := rfl
      rw [he]
      cases hr : (c.set E s' o' v).2 with
      | error e =>
        rw [hs.2 e hr]
        simp [Except.isOk, Except.toBool]
      | ok u =>
        have h1 := hs.1 (by rw [hr])
        by_cases heq : (s', o') = (s, o)
        · simp only [Prod.mk.injEq] at heq
          obtain ⟨rfl, rfl⟩ := heq
          rw [h1.1]
          simp [Except.isOk, Except.toBool, Except.toOption]
        · rw [h1.2 s o (fun h => heq h.symm)]
          simp [heq]
    | save w =>
      rw [Cfg.step_get E hok hpl (.save w) (by intros; simp)]; rfl
    | getAll =>
      rw [Cfg.step_get E hok hpl .getAll (by intros; simp)]; rfl
    | hook s' o' h =>
      rw [Cfg.step_get E hok hpl (.hook s' o' h) (by intros; simp)]; rfl

/-! ### C26 -/

/-- C26 (partial): a successful `set` calls the registered hook once with the new value — except
when the file already reads as this value and the option is among the changes. -/
theorem C26_hook_called_partial (E : CfgEnv S O V) (c : Cfg S O V H) (s : S) (o : O) (v : V) (h : H)
    (hh : PyDict.get? c.hooks (s, o) = some (some h))
    (hfile : c.parserGet E s o ≠ .ok v ∨ get2 c.changes s o = none)
    (hset : (c.set E s o v).2 = .ok ()) :
    (c.set E s o v).1.calls = c.calls ++ [(h, v)] := by
  rcases Cfg.set_cases' E c s o v with ⟨e, h1, h2⟩ | ⟨h1, h2, h3, h4⟩ | ⟨h1, h2, h3, h4⟩
  · rw [hset] at h1; simp at h1
  · rcases hfile with hf | hf
    · exact absurd h2 hf
    · rw [hf] at h3; simp at h3
  · rw [h4]
    unfold Cfg.callHook
    simp only
    rw [hh]

/-- C26: no hook is called by any other call, nor by a `set` of an option without a hook. -/
theorem C26_no_other_calls (E : CfgEnv S O V) (c : Cfg S O V H) :
    (∀ s o v, (∀ h, PyDict.get? c.hooks (s, o) ≠ some (some h)) → (c.set E s o v).1.calls = c.calls) ∧
    (∀ w, (c.saveChanges E w).1.calls = c.calls) ∧ (c.getAll E).1.calls = c.calls := by
  refine ⟨?_, ?_, ?_⟩
  · intro s o v hno
    rcases Cfg.set_cases' E c s o v with ⟨e, _, h⟩ | ⟨_, _, _, h⟩ | ⟨_, _, _, h⟩
    · rw [h]
    · rw [h]
    · rw [h]
      unfold Cfg.callHook
      split
      · next x hx => exact absurd hx (hno x)
      · rfl
  · intro w
    unfold Cfg.saveChanges
    split
    · rfl
    · rcases Cfg.writeAll E c.parser (c.toSave w).1 with ⟨p, r⟩
      cases r <;> rfl
  · unfold Cfg.getAll
    cases Cfg.getAllLoop E (PyDict.keys c.changes) c.changes c.changes c.parser <;> rfl

theorem Cfg.step_hooks (E : CfgEnv S O V) (c : Cfg S O V H) (op : Cfg.Op S O V H) (s : S) (o : O)
    (h : PyDict.get? c.hooks (s, o) = some none) :
    PyDict.get? (c.step E op).1.hooks (s, o) = some none := by
  cases op with
  | set s' o' v =>
    unfold Cfg.step
    rcases Cfg.set_cases' E c s' o' v with ⟨e, _, h'⟩ | ⟨_, _, _, h'⟩ | ⟨_, _, _, h'⟩
    · rw [h']; exact h
    · rw [h']; exact h
    · rw [h', (Cfg.callHook_changes _ s' o' v).2.2]; exact h
  | save w =>
    unfold Cfg.step Cfg.saveChanges
    simp only
    split
    · exact h
    · rcases Cfg.writeAll E c.parser (c.toSave w).1 with ⟨p, r⟩
      cases r <;> exact h
  | getAll =>
    unfold Cfg.step Cfg.getAll
    cases Cfg.getAllLoop E (PyDict.keys c.changes) c.changes c.changes c.parser <;> exact h
  | hook s' o' x =>
    unfold Cfg.step Cfg.hook
    simp only
    split
    · exact h
    · next hd =>
      simp only
      rw [PyDict.get?_set]
      split
      · next he =>
        exfalso
        apply hd
        simp only [Prod.mk.injEq] at he
        obtain ⟨rfl, rfl⟩ := he
        unfold Cfg.hookDisabled
        rw [h]
      · exact h

/-- C26: once a hook has been set to `None` it can never be replaced: through any history `hook` is
refused for that option and setting the option calls nothing. -/
theorem C26_none_is_permanent (E : CfgEnv S O V) (c : Cfg S O V H) (s : S) (o : O)
    (h : PyDict.get? c.hooks (s, o) = some none) (ops : List (Cfg.Op S O V H)) :
    (∀ x, (Cfg.run E c ops).hook s o x = (Cfg.run E c ops, .error .ImproperObjectAction)) ∧
    (∀ v, ((Cfg.run E c ops).set E s o v).1.calls = (Cfg.run E c ops).calls) := by
  have key : PyDict.get? (Cfg.run E c ops).hooks (s, o) = some none := by
    induction ops generalizing c with
    | nil => exact h
    | cons op ops ih => exact ih _ (Cfg.step_hooks E c op s o h)
  constructor
  · intro x
    unfold Cfg.hook
    rw [if_pos]
    unfold Cfg.hookDisabled
    rw [key]
  · intro v
    refine (C26_no_other_calls E _).1 s o v ?_
    intro x hx
    rw [key] at hx
    simp at hx

end

/-! ### Concrete configuration: strings with `%` -/

/-- Strings as values, every section/option allowed. -/
def strEnv : CfgEnv String String (List Char) := ⟨pctRead, pctStorable, fun _ _ => .ok ()⟩

/-- A session whose file has one section. -/
def strCfg : Cfg String String (List Char) Nat :=
  { changes := [], parser := [("a", [("x", "1".toList), ("y", "50%%%%".toList)])],
    file := [("a", [("x", "1".toList), ("y", "50%%%%".toList)])], hooks := [(("a", "x"), some 7)], calls := [] }

/-- Values without `%` are plain. -/
theorem pctRead_plain {v : List Char} (h : '%' ∉ v) : strEnv.PlainValue v := by
  unfold CfgEnv.PlainValue strEnv
  induction v with
  | nil => rfl
  | cons a v ih =>
    have h1 : a ≠ '%' := fun h' => h (by simp [h'])
    have h2 : '%' ∉ v := fun h' => h (by simp [h'])
    have := ih h2
    simp only at this ⊢
    unfold pctRead
    split
    · next h => simp_all
    · next h => simp_all
    · next h => simp_all
    · next c r h1' h2' h3 =>
      simp only [List.cons.injEq] at h3
      obtain ⟨rfl, rfl⟩ := h3
      rw [this]; rfl

/-- The hypotheses of the history theorem are met by a session that sets, saves and reads. -/
example : ((Cfg.run strEnv (Cfg.load [("a", [("x", "1".toList)])] : Cfg String String (List Char) Nat)
    [.set "a" "x" "2".toList, .getAll, .save .all, .set "b" "z" "3".toList, .save (.sec "b")]).get
      strEnv "a" "x").toOption = some "2".toList := by rfl

example : (Cfg.load [("a", [("x", "1".toList)])] : Cfg String String (List Char) Nat).Plain strEnv := by
  intro s o v h
  simp only [Cfg.load, get2_nil, reduceCtorEq, false_or] at h
  unfold get2 at h
  rw [PyDict.get?_cons, PyDict.get?_nil] at h
  split at h
  · simp only [Option.bind_some, PyDict.get?_cons, PyDict.get?_nil] at h
    split at h
    · simp only [Option.some.injEq] at h; subst h; exact pctRead_plain (by decide)
    · simp at h
  · simp at h

/-- C25 violated: a value with a percent sign changes when it is saved: set to `100%%`, `get`
returns `100%%`, but after `saveChanges()` it returns `100%`. -/
theorem C25_percent_violated :
    let c := (strCfg.set strEnv "a" "x" "100%%".toList).1
    c.get strEnv "a" "x" = .ok "100%%".toList ∧ (c.saveChanges strEnv .all).2 = .ok () ∧
    (c.saveChanges strEnv .all).1.get strEnv "a" "x" = .ok "100%".toList := by
  refine ⟨by rfl, by rfl, by rfl⟩

/-- C25 violated: `get()` is not free of effects: it copies the interpolated value of an option that
was never set into the changes of its section, so the next `saveChanges()` rewrites it. -/
theorem C25_getAll_then_save_violated :
    let c := (strCfg.set strEnv "a" "x" "2".toList).1
    let c' := (c.getAll strEnv).1
    c.get strEnv "a" "y" = .ok "50%%".toList ∧
    (c.saveChanges strEnv .all).1.get strEnv "a" "y" = .ok "50%%".toList ∧
    (c'.saveChanges strEnv .all).2 = .ok () ∧
    (c'.saveChanges strEnv .all).1.get strEnv "a" "y" = .ok "50%".toList := by
  refine ⟨by rfl, by rfl, by rfl, by rfl⟩

/-- C26 violated: setting an option back to the value in the file changes the value `get` returns
from `2` to `1` without calling the hook. -/
theorem C26_set_back_violated :
    let c := (strCfg.set strEnv "a" "x" "2".toList).1
    c.calls = [(7, "2".toList)] ∧ c.get strEnv "a" "x" = .ok "2".toList ∧
    (c.set strEnv "a" "x" "1".toList).1.get strEnv "a" "x" = .ok "1".toList ∧
    (c.set strEnv "a" "x" "1".toList).1.calls = c.calls := by
  refine ⟨by rfl, by rfl, by rfl, by rfl⟩

end Nimble
