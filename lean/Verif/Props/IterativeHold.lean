import Verif.Props.Holdout

/-!
# C75, second part: what data-holdout validation does for the iterative selector

Every validation after the first one is made on a new copy of the base learner, but the copies are trained
by a method bound to the first of them.
-/

namespace Nimble.Learner

variable {K V D B P : Type} [DecidableEq K] [DecidableEq V]

/-! ## What training learner `u` leaves alone -/

/-- From `m` to `m'` only learner `u` was trained. -/
structure Frame (u : Nat) (m m' : Mem K V B) : Prop where
  len : m'.tls.length = m.tls.length
  tl : ∀ v, v ≠ u → m'.tl v = m.tl v
  backends : ∀ (i : Nat), i < m.backends.length → m'.backends[i]? = m.backends[i]?
  dlen : m.dicts.length ≤ m'.dicts.length
  dict : ∀ b, b < m.dicts.length → b ≠ (m.tl u).args → b ≠ (m.tl u).trans → m'.dict b = m.dict b
  own : m'.tl u = m.tl u ∨ (m.dicts.length ≤ (m'.tl u).args ∧ m.dicts.length ≤ (m'.tl u).trans)

theorem Frame.refl (u : Nat) (m : Mem K V B) : Frame u m m :=
  ⟨rfl, fun _ _ => rfl, fun _ _ => rfl, Nat.le_refl _, fun _ _ _ _ => rfl, .inl rfl⟩

theorem Frame.trans {u : Nat} {m m1 m2 : Mem K V B} (h1 : Frame u m m1) (hu : m1.tl u = m.tl u)
    (hb : m1.backends.length = m.backends.length) (h2 : Frame u m1 m2) : Frame u m m2 := by
  refine ⟨h2.len.trans h1.len, fun v hv => (h2.tl v hv).trans (h1.tl v hv),
    fun i hi => (h2.backends i (by omega)).trans (h1.backends i hi), Nat.le_trans h1.dlen h2.dlen, ?_, ?_⟩
  · intro b hb h3 h4
    rw [h2.dict b (Nat.lt_of_lt_of_le hb h1.dlen) (by rw [hu]; exact h3) (by rw [hu]; exact h4),
      h1.dict b hb h3 h4]
  · rcases h2.own with e | ⟨e1, e2⟩
    · exact .inl (e.trans hu)
    · exact .inr ⟨Nat.le_trans h1.dlen e1, Nat.le_trans h1.dlen e2⟩

theorem assign_Frame (L : Lib K V D B P) (u : Nat) (m : Mem K V B) (a : PyDict K V) :
    Frame u m (L.assign (m.tl u) a m).1 := by
  obtain ⟨f1, f2, f3, f4⟩ := assign_frame L (m.tl u) a m
  exact ⟨by rw [f1], fun v _ => tl_of_tls f1 v, fun i _ => by rw [f2], by omega,
    fun b _ h1 h2 => f4 b h1 h2, .inl (tl_of_tls f1 u)⟩

theorem retrain_Frame (L : Lib K V D B P) (m : Mem K V B) (u : Nat) (x : D) (a : PyDict K V) :
    Frame u m (L.retrain m u x a).1 ∧
    ((L.retrain m u x a).2 = .ok () → u < m.tls.length →
      m.dicts.length ≤ ((L.retrain m u x a).1.tl u).args ∧
      m.dicts.length ≤ ((L.retrain m u x a).1.tl u).trans) := by
  obtain ⟨f1, f2, f3, f4⟩ := assign_frame L (m.tl u) a m
  rcases retrain_cases L m u x a with ⟨e1, e2⟩ | ⟨e1, e2⟩ | ⟨b, _, _, e⟩
  · rw [e1]; exact ⟨Frame.refl u m, fun h => absurd h e2⟩
  · rw [e1]; exact ⟨assign_Frame L u m a, fun h => absurd h e2⟩
  · rw [e]
    dsimp only
    refine ⟨?_, fun _ hu => ?_⟩
    · refine Frame.trans (assign_Frame L u m a) (tl_of_tls f1 u) (by rw [f2]) ?_
      generalize (L.assign (m.tl u) a m).1 = m1
      refine ⟨by simp [Lib.renew], fun v hv => ?_, fun i hi => ?_, by simp [Lib.renew], ?_, ?_⟩
      · rw [tl_renew, if_neg (fun h => hv h.1.symm)]
      · unfold Lib.renew; dsimp only; rw [List.getElem?_append_left hi]
      · intro c hc _ _; exact dict_append m1 hc
      · rw [tl_renew]
        split
        · right; exact ⟨Nat.le_refl _, Nat.le_succ _⟩
        · left; rfl
    · rw [tl_renew, if_pos ⟨rfl, by rw [f1]; exact hu⟩, f3]
      exact ⟨Nat.le_refl _, Nat.le_succ _⟩

/-! ## Validations -/

/-- From `h` to `h'` only learner `u` was trained. -/
structure HFrame (u : Nat) (h h' : Hold K V B P) : Prop where
  base : h'.base = h.base
  best : h'.bestTL = h.bestTL
  learner : h'.learner = h.learner
  record : h'.record = h.record
  mem : Frame u h.mem h'.mem

theorem again_frame (L : Lib K V D B P) (x : D) (h : Hold K V B P) (u : Nat) (a : PyDict K V) :
    HFrame u h (Hold.again L x h u a).1 ∧ (Hold.again L x h u a).1.updater = h.updater ∧
    (Hold.again L x h u a).1.incremental = h.incremental ∧
    ((Hold.again L x h u a).2 = .ok () → u < h.mem.tls.length →
      h.mem.dicts.length ≤ ((Hold.again L x h u a).1.mem.tl u).args ∧
      h.mem.dicts.length ≤ ((Hold.again L x h u a).1.mem.tl u).trans) := by
  obtain ⟨r1, r2⟩ := retrain_Frame L h.mem u x a
  unfold Hold.again
  revert r1 r2
  generalize L.retrain h.mem u x a = r
  obtain ⟨m, e⟩ := r
  intro r1 r2
  cases e with
  | error e => exact ⟨⟨rfl, rfl, rfl, rfl, r1⟩, rfl, rfl, fun h => by cases h⟩
  | ok _ => exact ⟨⟨rfl, rfl, rfl, rfl, r1⟩, rfl, rfl, fun _ hu => r2 rfl hu⟩

theorem againIfChanged_frame (L : Lib K V D B P) (x : D) (h : Hold K V B P) (u : Nat) (a : PyDict K V) :
    HFrame u h (Hold.againIfChanged L x h u a).1 ∧ (Hold.againIfChanged L x h u a).1.updater = h.updater ∧
    (Hold.againIfChanged L x h u a).1.incremental = h.incremental ∧
    ((Hold.againIfChanged L x h u a).2 = .ok () → a ≠ h.last → u < h.mem.tls.length →
      h.mem.dicts.length ≤ ((Hold.againIfChanged L x h u a).1.mem.tl u).args ∧
      h.mem.dicts.length ≤ ((Hold.againIfChanged L x h u a).1.mem.tl u).trans) := by
  unfold Hold.againIfChanged
  split
  · obtain ⟨a1, a2, a3, a4⟩ := again_frame L x h u a
    exact ⟨a1, a2, a3, fun h1 _ h2 => a4 h1 h2⟩
  · rename_i hne
    exact ⟨⟨rfl, rfl, rfl, rfl, Frame.refl _ _⟩, rfl, rfl, fun _ h => absurd h hne⟩

theorem update_Frame (u : Nat) (m : Mem K V B) (a : PyDict K V) :
    Frame u m (Lib.update m (m.tl u).args a) := by
  obtain ⟨f1, f2, f3, f4, _⟩ := update_frame (m.tl u).args a m
  exact ⟨by rw [f1], fun v _ => tl_of_tls f1 v, fun i _ => by rw [f2], by omega,
    fun b _ h1 _ => f4 b h1, .inl (tl_of_tls f1 u)⟩

/-- A learner that cannot be trained incrementally: only its arguments are changed. -/
theorem more_frame (L : Lib K V D B P) {x : D} (hinc : ∀ b a, ∃ e, L.inc x b a = .error e) (h : Hold K V B P)
    (u : Nat) (a : PyDict K V) : ∃ e, Hold.more L x h u a =
      ({ h with mem := Lib.update h.mem (h.mem.tl u).args a }, .error e) := by
  unfold Hold.more Lib.incrementalTrain Lib.incBackend
  cases hb : (Lib.update h.mem (h.mem.tl u).args a).backends[((Lib.update h.mem (h.mem.tl u).args a).tl u).backend]? with
  | none => exact ⟨_, rfl⟩
  | some b =>
    dsimp only
    obtain ⟨e, he⟩ := hinc b ((Lib.update h.mem (h.mem.tl u).args a).arguments u)
    rw [he]
    exact ⟨_, rfl⟩

theorem second_frame (L : Lib K V D B P) {x : D} (hinc : ∀ b a, ∃ e, L.inc x b a = .error e)
    {h h' : Hold K V B P} {u : Nat} {a : PyDict K V} (hi : h.incremental ≠ some true)
    (hr : Hold.second L x h u a = (h', .ok ())) :
    HFrame u h h' ∧ h'.updater = some u ∧ h'.incremental = some false ∧
    (a ≠ h.last → u < h.mem.tls.length → h.mem.dicts.length ≤ (h'.mem.tl u).args ∧
      h.mem.dicts.length ≤ (h'.mem.tl u).trans) := by
  unfold Hold.second at hr
  cases hc : h.incremental with
  | some b =>
    rw [hc] at hr
    dsimp only at hr
    have hb : b = false := by
      cases b with
      | false => rfl
      | true => exact absurd hc hi
    subst hb
    obtain ⟨a1, a2, a3, a4⟩ := againIfChanged_frame L x { h with incremental := some false, updater := some u } u a
    rw [hr] at a1 a2 a3 a4
    exact ⟨⟨a1.base, a1.best, a1.learner, a1.record, a1.mem⟩, a2, a3, fun h1 h2 => a4 rfl h1 h2⟩
  | none =>
    rw [hc] at hr
    dsimp only at hr
    obtain ⟨e, he⟩ := more_frame L hinc h u a
    rw [he] at hr
    obtain ⟨f1, f2, f3, f4, _⟩ := update_frame (h.mem.tl u).args a h.mem
    have main : ∀ {g : Hold K V B P}, Hold.againIfChanged L x
        { h with mem := Lib.update h.mem (h.mem.tl u).args a, incremental := some false, updater := some u } u a
          = (g, .ok ()) →
        HFrame u h g ∧ g.updater = some u ∧ g.incremental = some false ∧
        (a ≠ h.last → u < h.mem.tls.length → h.mem.dicts.length ≤ (g.mem.tl u).args ∧
          h.mem.dicts.length ≤ (g.mem.tl u).trans) := by
      intro g hg
      obtain ⟨a1, a2, a3, a4⟩ := againIfChanged_frame L x
        { h with mem := Lib.update h.mem (h.mem.tl u).args a, incremental := some false, updater := some u } u a
      rw [hg] at a1 a2 a3 a4
      refine ⟨⟨a1.base, a1.best, a1.learner, a1.record,
        Frame.trans (update_Frame u h.mem a) (tl_of_tls f1 u) (by rw [f2]) a1.mem⟩, a2, a3, fun h1 h2 => ?_⟩
      have := a4 rfl h1 (by dsimp only; rw [f1]; exact h2)
      dsimp only at this
      rw [f3] at this
      exact this
    unfold Hold.orRetrain at hr
    dsimp only at hr
    split at hr
    · exact main hr
    · exact main hr
    · have := congrArg Prod.snd hr
      cases this

theorem later_frame (L : Lib K V D B P) {x : D} {h h' : Hold K V B P} {u : Nat} {a : PyDict K V}
    (hi : h.incremental ≠ some true) (hr : Hold.later L x h u a = (h', .ok ())) :
    HFrame u h h' ∧ h'.updater = h.updater ∧ h'.incremental = h.incremental := by
  unfold Hold.later at hr
  rw [if_neg hi] at hr
  obtain ⟨a1, a2, a3, _⟩ := againIfChanged_frame L x h u a
  rw [hr] at a1 a2 a3
  exact ⟨a1, a2, a3⟩

/-! ## The base learner is never trained again -/

/-- The base learner `t` and the learner to return have the model `b0`. -/
structure Stale (t : Nat) (b0 : B) (h : Hold K V B P) : Prop where
  base : h.base = some t
  exist : t < h.mem.tls.length
  model : h.mem.backends[(h.mem.tl t).backend]? = some b0
  best : ∃ s, h.bestTL = some s ∧ s < h.mem.tls.length ∧ h.mem.backends[(h.mem.tl s).backend]? = some b0 ∧
    ∀ u, h.updater = some u → u ≠ s
  upd : ∀ u, h.updater = some u → u < h.mem.tls.length ∧ u ≠ t
  inc : h.incremental ≠ some true

theorem tl_shallow (m : Mem K V B) (t u : Nat) :
    (m.shallow t).1.tl u = if u = m.tls.length then m.tl t else m.tl u := by
  unfold Mem.shallow Mem.tl
  dsimp only
  by_cases h : u = m.tls.length
  · subst h; simp
  · rw [if_neg h]
    by_cases hu : u < m.tls.length
    · rw [List.getElem?_append_left hu]
    · rw [List.getElem?_eq_none (by simp; omega), List.getElem?_eq_none (by omega)]

theorem lt_of_getElem?_eq_some {α : Type} {l : List α} {i : Nat} {a : α} (h : l[i]? = some a) : i < l.length :=
  (List.getElem?_eq_some_iff.1 h).1

theorem updateTL_base {h : Hold K V B P} {t : Nat} (hb : h.base = some t) :
    Hold.updateTL h true = { h with mem := (h.mem.shallow t).1, learner := some h.mem.tls.length } := by
  unfold Hold.updateTL
  rw [if_pos rfl, hb]
  rfl

/-- The trained state before the test. -/
structure Trained (t w : Nat) (b0 : B) (h : Hold K V B P) : Prop where
  stale : Stale t b0 h
  learner : h.learner = some w

theorem prepare_stale (L : Lib K V D B P) {x : D} (hinc : ∀ b a, ∃ e, L.inc x b a = .error e)
    {h h' : Hold K V B P} {t : Nat} {b0 : B} {c : PyDict K V} (hs : Stale t b0 h)
    (hr : Hold.prepare L x (Hold.updateTL h true) c = (h', .ok ())) : Stale t b0 h' := by
  rw [updateTL_base hs.base] at hr
  unfold Hold.prepare at hr
  dsimp only at hr
  obtain ⟨s, b1, b2, b3, b4⟩ := hs.best
  have hlen : (h.mem.shallow t).1.tls.length = h.mem.tls.length + 1 := by simp [Mem.shallow]
  have htl : ∀ v, v < h.mem.tls.length → (h.mem.shallow t).1.tl v = h.mem.tl v := by
    intro v hv; rw [tl_shallow, if_neg (by omega)]
  have main : ∀ u, u ≠ t → u ≠ s → u < h.mem.tls.length + 1 → HFrame u
      { h with mem := (h.mem.shallow t).1, learner := some h.mem.tls.length } h' →
      h'.updater = some u → h'.incremental ≠ some true → Stale t b0 h' := by
    intro u hut hus hul hf hu hi
    have hm := hf.mem
    have hlen' : h'.mem.tls.length = h.mem.tls.length + 1 := hm.len.trans hlen
    have hback : ∀ (i : Nat) (b : B), h.mem.backends[i]? = some b → h'.mem.backends[i]? = some b := by
      intro i b hb
      rw [hm.backends i (lt_of_getElem?_eq_some hb)]
      exact hb
    refine ⟨hf.base.trans hs.base, by have := hs.exist; omega, ?_, ⟨s, hf.best.trans b1, by omega, ?_, ?_⟩, ?_, hi⟩
    · rw [hm.tl t (Ne.symm hut)]
      dsimp only
      rw [htl t hs.exist]
      exact hback _ _ hs.model
    · rw [hm.tl s (Ne.symm hus)]
      dsimp only
      rw [htl s b2]
      exact hback _ _ b3
    · intro u' hu'
      rw [hu] at hu'
      injection hu' with hu'
      rw [← hu']; exact hus
    · intro u' hu'
      rw [hu] at hu'
      injection hu' with hu'
      rw [← hu']
      exact ⟨by omega, hut⟩
  have het := hs.exist
  cases hu : h.updater with
  | none =>
    rw [hu] at hr
    dsimp only at hr
    obtain ⟨f1, f2, f3, _⟩ := second_frame L hinc (h := { h with mem := (h.mem.shallow t).1, learner := some h.mem.tls.length, updater := none }) hs.inc hr
    exact main _ (by omega) (by omega) (by omega) ⟨f1.base, f1.best, f1.learner, f1.record, f1.mem⟩ f2 (by rw [f3]; simp)
  | some u =>
    rw [hu] at hr
    dsimp only at hr
    obtain ⟨u1, u2⟩ := hs.upd u hu
    obtain ⟨f1, f2, f3⟩ := later_frame L (h := { h with mem := (h.mem.shallow t).1, learner := some h.mem.tls.length, updater := some u }) hs.inc hr
    exact main u u2 (b4 u hu) (by omega) ⟨f1.base, f1.best, f1.learner, f1.record, f1.mem⟩ f2 (by rw [f3]; exact hs.inc)

theorem note_stale {isBest : P → P → Bool} {h : Hold K V B P} {t : Nat} {b0 : B} (hs : Stale t b0 h)
    (a : PyDict K V) (record : Bool) (p : P) : Stale t b0 (Hold.note isBest h a record p) := by
  unfold Hold.note
  dsimp only
  split
  · unfold Hold.keepBest
    rw [hs.base]
    dsimp only
    have hlen : (h.mem.shallow t).1.tls.length = h.mem.tls.length + 1 := by simp [Mem.shallow]
    have het := hs.exist
    have htt : (h.mem.shallow t).1.tl t = h.mem.tl t := by rw [tl_shallow, if_neg (by omega)]
    refine ⟨rfl, by dsimp only; omega, ?_, ⟨h.mem.tls.length, rfl, by dsimp only; omega, ?_, ?_⟩, ?_, hs.inc⟩
    · dsimp only; rw [htt]; exact hs.model
    · dsimp only; rw [tl_shallow, if_pos rfl]; exact hs.model
    · intro u hu
      have := (hs.upd u hu).1
      omega
    · intro u hu
      have := hs.upd u hu
      exact ⟨by dsimp only; omega, this.2⟩
  · exact ⟨hs.base, hs.exist, hs.model, hs.best, hs.upd, hs.inc⟩

theorem validate_stale (L : Lib K V D B P) {isBest : P → P → Bool} {x vx : D}
    (hinc : ∀ b a, ∃ e, L.inc x b a = .error e) {h h' : Hold K V B P} {t : Nat} {b0 : B} {c : PyDict K V}
    {record : Bool} {p : P} (hs : Stale t b0 h)
    (hr : Hold.validate L isBest x vx (Hold.updateTL h true) c record = (h', .ok p)) : Stale t b0 h' := by
  unfold Hold.validate Hold.judged at hr
  cases hp : Hold.prepare L x (Hold.updateTL h true) c with
  | mk g e =>
    rw [hp] at hr
    cases e with
    | error e => exact absurd (congrArg Prod.snd hr) (by simp)
    | ok _ =>
      dsimp only at hr
      cases ht : Hold.test L vx g with
      | error e => rw [ht] at hr; exact absurd (congrArg Prod.snd hr) (by simp)
      | ok q =>
        rw [ht] at hr
        dsimp only at hr
        have e1 := congrArg Prod.fst hr
        dsimp only at e1
        rw [← e1]
        exact note_stale (prepare_stale L hinc hs hp) _ _ _

theorem trialRun_stale (L : Lib K V D B P) {isBest : P → P → Bool} {x vx : D}
    (hinc : ∀ b a, ∃ e, L.inc x b a = .error e) {t : Nat} {b0 : B} : ∀ (cs : List (PyDict K V × Bool))
    {h h' : Hold K V B P} {ps : List P}, Stale t b0 h →
    Hold.trialRun L isBest x vx cs h = (h', .ok ps) → Stale t b0 h'
  | [], h, h', ps, hs, hr => by
    have := congrArg Prod.fst hr
    dsimp only [Hold.trialRun] at this
    rw [← this]; exact hs
  | c :: cs, h, h', ps, hs, hr => by
    unfold Hold.trialRun at hr
    cases hv : Hold.validate L isBest x vx (Hold.updateTL h true) c.1 c.2 with
    | mk g e =>
      rw [hv] at hr
      cases e with
      | error e => exact absurd (congrArg Prod.snd hr) (by simp)
      | ok q =>
        dsimp only at hr
        have e1 := congrArg Prod.fst hr
        have e2 := congrArg Prod.snd hr
        dsimp only at e1 e2
        cases hrest : Hold.trialRun L isBest x vx cs g with
        | mk k e3 =>
          rw [hrest] at e1 e2
          dsimp only at e1 e2
          cases e3 with
          | error e => cases e2
          | ok ps' =>
            rw [← e1]
            exact trialRun_stale L hinc cs (validate_stale L hinc hs hv) hrest

/-- After the first validation. -/
theorem first_stale (L : Lib K V D B P) {isBest : P → P → Bool} {x vx : D} {m0 : Mem K V B} {inc : Bool}
    {h : Hold K V B P} {a : PyDict K V} {p : P}
    (hr : Hold.validate L isBest x vx (Hold.start m0 inc) a true = (h, .ok p)) :
    ∃ t b0, L.train x a = .ok b0 ∧ Stale t b0 h ∧ h.updater = none ∧ h.last = a ∧
      h.mem.stored t = a ∧ (h.mem.tl t).trans < h.mem.dicts.length ∧ h.record.best = some (p, a) := by
  unfold Hold.validate Hold.judged at hr
  have hstart : Hold.prepare L x (Hold.start (P := P) m0 inc) a = Hold.first L x (Hold.start m0 inc) a := rfl
  rw [hstart] at hr
  unfold Hold.first at hr
  dsimp only [Hold.start] at hr
  cases hf : L.fresh m0 x a with
  | mk m e =>
    rw [hf] at hr
    cases e with
    | error e => exact absurd (congrArg Prod.snd hr) (by simp)
    | ok t =>
      dsimp only at hr
      have hw := work_fresh L hf
      obtain ⟨b0, hb0, htr⟩ := hw.model
      split at hr
      · exact absurd (congrArg Prod.snd hr) (by simp)
      · rename_i q hq
        have e1 := congrArg Prod.fst hr
        have e2 := congrArg Prod.snd hr
        dsimp only at e1 e2
        injection e2 with e2
        subst e2
        refine ⟨t, b0, htr, ?_⟩
        have hlen : (m.shallow t).1.tls.length = m.tls.length + 1 := by simp [Mem.shallow]
        have het := hw.exist
        have htt : (m.shallow t).1.tl t = m.tl t := by rw [tl_shallow, if_neg (by omega)]
        rw [← e1]
        refine ⟨⟨rfl, ?_, ?_, ⟨m.tls.length, rfl, ?_, ?_, fun u hu => (by cases hu)⟩, fun u hu => (by cases hu), ?_⟩,
          rfl, rfl, ?_, ?_, rfl⟩
        · show t < (m.shallow t).1.tls.length; omega
        · show (m.shallow t).1.backends[((m.shallow t).1.tl t).backend]? = _
          rw [htt]; exact hb0
        · show m.tls.length < (m.shallow t).1.tls.length; omega
        · show (m.shallow t).1.backends[((m.shallow t).1.tl m.tls.length).backend]? = _
          rw [tl_shallow, if_pos rfl]; exact hb0
        · show (if inc = true then none else some false) ≠ some true
          split <;> simp
        · show (m.shallow t).1.stored t = a
          unfold Mem.stored
          rw [htt]; exact hw.stored
        · show ((m.shallow t).1.tl t).trans < _
          rw [htt]; exact hw.range.2.1

/-- C75 violated, for every run: with a learner that cannot be trained incrementally, whatever argument sets
the selector validates and whichever performs best, the learner kept as the best one, and returned by
`nimble.train`, has the model trained with the very first argument set. -/
theorem C75_returned_model_violated (L : Lib K V D B P) {isBest : P → P → Bool} {x vx : D}
    (hinc : ∀ b a, ∃ e, L.inc x b a = .error e) {m0 : Mem K V B} {h h' : Hold K V B P} {a : PyDict K V}
    {p : P} {cs : List (PyDict K V × Bool)} {ps : List P}
    (h0 : Hold.validate L isBest x vx (Hold.start m0 true) a true = (h, .ok p))
    (hr : Hold.trialRun L isBest x vx cs h = (h', .ok ps)) :
    ∃ s b, h'.bestTL = some s ∧ L.train x a = .ok b ∧ h'.mem.backends[(h'.mem.tl s).backend]? = some b := by
  obtain ⟨t, b0, htr, hs, _⟩ := first_stale L h0
  obtain ⟨s, s1, s2, s3, _⟩ := (trialRun_stale L hinc cs hs hr).best
  exact ⟨s, b0, s1, htr, s3⟩

/-! ## All later performances are the same -/

/-- The dictionaries of the learner trained, `u`, are no longer those of the base learner. -/
structure Apart (t u : Nat) (s0 : PyDict K V) (h : Hold K V B P) : Prop where
  upd : h.updater = some u
  range : (h.mem.tl t).trans < h.mem.dicts.length
  stored : h.mem.stored t = s0
  args : (h.mem.tl u).args ≠ (h.mem.tl t).trans
  trans : (h.mem.tl u).trans ≠ (h.mem.tl t).trans

theorem frame_apart {m m' : Mem K V B} {t u : Nat} {s0 : PyDict K V} (hf : Frame u m m') (hut : u ≠ t)
    (hr : (m.tl t).trans < m.dicts.length) (hst : m.stored t = s0) (h1 : (m.tl u).args ≠ (m.tl t).trans)
    (h2 : (m.tl u).trans ≠ (m.tl t).trans) :
    (m'.tl t).trans < m'.dicts.length ∧ m'.stored t = s0 ∧ (m'.tl u).args ≠ (m'.tl t).trans ∧
    (m'.tl u).trans ≠ (m'.tl t).trans := by
  have ht := hf.tl t (Ne.symm hut)
  have hd := hf.dlen
  refine ⟨by rw [ht]; omega, ?_, ?_, ?_⟩
  · unfold Mem.stored at hst ⊢
    rw [ht, hf.dict _ hr (Ne.symm h1) (Ne.symm h2)]; exact hst
  · rw [ht]
    rcases hf.own with e | ⟨e1, e2⟩
    · rw [e]; exact h1
    · omega
  · rw [ht]
    rcases hf.own with e | ⟨e1, e2⟩
    · rw [e]; exact h2
    · omega

theorem shallow_stored (m : Mem K V B) {t : Nat} (ht : t < m.tls.length) :
    (m.shallow t).1.stored t = m.stored t ∧ (m.shallow t).1.stored m.tls.length = m.stored t := by
  unfold Mem.stored
  rw [tl_shallow, if_neg (by omega), tl_shallow, if_pos rfl]
  exact ⟨rfl, rfl⟩

/-- Once the learner trained is apart, a validation measures the first model with the stored arguments of the
base learner. -/
theorem prepare_apart (L : Lib K V D B P) {x : D} {h h' : Hold K V B P} {t u : Nat} {b0 : B}
    {s0 : PyDict K V} {c : PyDict K V} (hs : Stale t b0 h) (ha : Apart t u s0 h)
    (hr : Hold.prepare L x (Hold.updateTL h true) c = (h', .ok ())) :
    Apart t u s0 h' ∧ ∀ vx, Hold.test L vx h' = L.outcome b0 vx [] s0 := by
  rw [updateTL_base hs.base] at hr
  unfold Hold.prepare at hr
  dsimp only at hr
  rw [ha.upd] at hr
  dsimp only at hr
  obtain ⟨u1, u2⟩ := hs.upd u ha.upd
  have het := hs.exist
  obtain ⟨f1, f2, f3⟩ := later_frame L (h := { h with mem := (h.mem.shallow t).1, learner := some h.mem.tls.length, updater := some u }) hs.inc hr
  have hm := f1.mem
  dsimp only at hm
  have htt : (h.mem.shallow t).1.tl t = h.mem.tl t := by rw [tl_shallow, if_neg (by omega)]
  have htu : (h.mem.shallow t).1.tl u = h.mem.tl u := by rw [tl_shallow, if_neg (by omega)]
  have htw : (h.mem.shallow t).1.tl h.mem.tls.length = h.mem.tl t := by rw [tl_shallow, if_pos rfl]
  obtain ⟨g1, g2, g3, g4⟩ := frame_apart (t := t) (s0 := s0) hm u2 (by rw [htt]; exact ha.range)
    ((shallow_stored h.mem het).1.trans ha.stored) (by rw [htt, htu]; exact ha.args)
    (by rw [htt, htu]; exact ha.trans)
  refine ⟨⟨f2, g1, g2, g3, g4⟩, fun vx => ?_⟩
  unfold Hold.test
  rw [f1.learner]
  dsimp only
  unfold Lib.apply
  have hw : h'.mem.tl h.mem.tls.length = h.mem.tl t := by rw [hm.tl _ (by omega), htw]
  have ht' : h'.mem.tl t = h.mem.tl t := by rw [hm.tl t (Ne.symm u2), htt]
  rw [hw]
  have : h'.mem.backends[(h.mem.tl t).backend]? = some b0 := by
    rw [hm.backends _ (lt_of_getElem?_eq_some hs.model)]; exact hs.model
  rw [this]
  dsimp only
  have hst : h'.mem.stored h.mem.tls.length = s0 := by
    rw [← g2]; unfold Mem.stored; rw [hw, ht']
  rw [hst]

theorem note_apart {isBest : P → P → Bool} {h : Hold K V B P} {t u : Nat} {b0 : B} {s0 : PyDict K V}
    (hs : Stale t b0 h) (ha : Apart t u s0 h) (a : PyDict K V) (record : Bool) (p : P) :
    Apart t u s0 (Hold.note isBest h a record p) := by
  unfold Hold.note
  dsimp only
  split
  · unfold Hold.keepBest
    rw [hs.base]
    dsimp only
    have het := hs.exist
    have heu := (hs.upd u ha.upd).1
    have htt : (h.mem.shallow t).1.tl t = h.mem.tl t := by rw [tl_shallow, if_neg (by omega)]
    have htu : (h.mem.shallow t).1.tl u = h.mem.tl u := by rw [tl_shallow, if_neg (by omega)]
    refine ⟨ha.upd, ?_, (shallow_stored h.mem het).1.trans ha.stored, ?_, ?_⟩
    · dsimp only; rw [htt]; exact ha.range
    · dsimp only; rw [htt, htu]; exact ha.args
    · dsimp only; rw [htt, htu]; exact ha.trans
  · exact ⟨ha.upd, ha.range, ha.stored, ha.args, ha.trans⟩

/-- The parts of a successful validation. -/
theorem validate_parts (L : Lib K V D B P) {isBest : P → P → Bool} {x vx : D} {h h' : Hold K V B P}
    {c : PyDict K V} {record : Bool} {p : P} (hr : Hold.validate L isBest x vx h c record = (h', .ok p)) :
    ∃ g, Hold.prepare L x h c = (g, .ok ()) ∧ Hold.test L vx g = .ok p ∧ h' = Hold.note isBest g c record p := by
  unfold Hold.validate Hold.judged at hr
  cases hp : Hold.prepare L x h c with
  | mk g e =>
    rw [hp] at hr
    cases e with
    | error e => exact absurd (congrArg Prod.snd hr) (by simp)
    | ok _ =>
      dsimp only at hr
      cases ht : Hold.test L vx g with
      | error e => rw [ht] at hr; exact absurd (congrArg Prod.snd hr) (by simp)
      | ok q =>
        rw [ht] at hr
        dsimp only at hr
        have e1 := congrArg Prod.fst hr
        have e2 := congrArg Prod.snd hr
        dsimp only at e1 e2
        injection e2 with e2
        subst e2
        exact ⟨g, rfl, ht, e1.symm⟩

theorem trialRun_cons (L : Lib K V D B P) {isBest : P → P → Bool} {x vx : D} {c : PyDict K V × Bool}
    {cs : List (PyDict K V × Bool)} {h h' : Hold K V B P} {ps : List P}
    (hr : Hold.trialRun L isBest x vx (c :: cs) h = (h', .ok ps)) :
    ∃ g p ps', Hold.validate L isBest x vx (Hold.updateTL h true) c.1 c.2 = (g, .ok p) ∧
      Hold.trialRun L isBest x vx cs g = (h', .ok ps') ∧ ps = p :: ps' := by
  unfold Hold.trialRun at hr
  cases hv : Hold.validate L isBest x vx (Hold.updateTL h true) c.1 c.2 with
  | mk g e =>
    rw [hv] at hr
    cases e with
    | error e => exact absurd (congrArg Prod.snd hr) (by simp)
    | ok q =>
      dsimp only at hr
      have e1 := congrArg Prod.fst hr
      have e2 := congrArg Prod.snd hr
      dsimp only at e1 e2
      cases hrest : Hold.trialRun L isBest x vx cs g with
      | mk k e3 =>
        rw [hrest] at e1 e2
        dsimp only at e1 e2
        cases e3 with
        | error e => cases e2
        | ok ps' =>
          refine ⟨g, q, ps', rfl, by rw [hrest, e1], ?_⟩
          injection e2 with e2
          exact e2.symm

theorem trialRun_apart (L : Lib K V D B P) {isBest : P → P → Bool} {x vx : D}
    (hinc : ∀ b a, ∃ e, L.inc x b a = .error e) {t u : Nat} {b0 : B} {s0 : PyDict K V} :
    ∀ (cs : List (PyDict K V × Bool)) {h h' : Hold K V B P} {ps : List P}, Stale t b0 h → Apart t u s0 h →
    Hold.trialRun L isBest x vx cs h = (h', .ok ps) → ∀ p ∈ ps, L.outcome b0 vx [] s0 = .ok p
  | [], h, h', ps, hs, ha, hr => by
    have := congrArg Prod.snd hr
    dsimp only [Hold.trialRun] at this
    injection this with this
    subst this
    intro p hp; cases hp
  | c :: cs, h, h', ps, hs, ha, hr => by
    obtain ⟨g, p, ps', hv, hrest, rfl⟩ := trialRun_cons L hr
    obtain ⟨k, k1, k2, rfl⟩ := validate_parts L hv
    obtain ⟨a1, a2⟩ := prepare_apart L hs ha k1
    intro q hq
    rcases List.mem_cons.1 hq with e | e
    · subst e; rw [← a2 vx]; exact k2
    · exact trialRun_apart L hinc cs (validate_stale L hinc hs hv)
        (note_apart (prepare_stale L hinc hs k1) a1 _ _ _) hrest q e

/-- C75 violated, for every run: with a learner that cannot be trained incrementally, after the first set `a`
and one trial of another set `c`, every further performance is the same, whatever arguments are tried: that
of the model of the first set. -/
theorem C75_trial_performances_violated (L : Lib K V D B P) {isBest : P → P → Bool} {x vx : D}
    (hinc : ∀ b a, ∃ e, L.inc x b a = .error e) {m0 : Mem K V B} {h h' : Hold K V B P} {a c : PyDict K V}
    {p q : P} {r : Bool} {cs : List (PyDict K V × Bool)} {ps : List P} (hne : c ≠ a)
    (h0 : Hold.validate L isBest x vx (Hold.start m0 true) a true = (h, .ok p))
    (hr : Hold.trialRun L isBest x vx ((c, r) :: cs) h = (h', .ok (q :: ps))) :
    ∃ b s, L.train x a = .ok b ∧ ∀ p' ∈ ps, L.outcome b vx [] s = .ok p' := by
  obtain ⟨t, b0, htr, hs, hun, hlast, hst, hrange, _⟩ := first_stale L h0
  obtain ⟨g, p1, ps', hv, hrest, e⟩ := trialRun_cons L hr
  injection e with e1 e2
  subst e1; subst e2
  have hs' := validate_stale L hinc hs hv
  obtain ⟨k, k1, k2, rfl⟩ := validate_parts L hv
  have hsk := prepare_stale L hinc hs k1
  rw [updateTL_base hs.base] at k1
  unfold Hold.prepare at k1
  dsimp only at k1
  rw [hun] at k1
  dsimp only at k1
  have het := hs.exist
  have hlen : (h.mem.shallow t).1.tls.length = h.mem.tls.length + 1 := by simp [Mem.shallow]
  obtain ⟨f1, f2, f3, f4⟩ := second_frame L hinc (h := { h with mem := (h.mem.shallow t).1, learner := some h.mem.tls.length, updater := none }) hs.inc k1
  have hm := f1.mem
  dsimp only at hm f4
  obtain ⟨g1, g2⟩ := f4 (by rw [hlast]; exact hne) (by omega)
  have htt : k.mem.tl t = h.mem.tl t := by rw [hm.tl t (by omega), tl_shallow, if_neg (by omega)]
  have hd : (h.mem.shallow t).1.dicts.length = h.mem.dicts.length := rfl
  have hdl := hm.dlen
  have ha : Apart t h.mem.tls.length (k.mem.stored t) k :=
    ⟨f2, by rw [htt]; omega, rfl, by rw [htt]; omega, by rw [htt]; omega⟩
  exact ⟨b0, k.mem.stored t, htr, trialRun_apart L hinc cs hs' (note_apart hsk ha _ _ _) hrest⟩

/-- The hypotheses are met: `p` = 3 first, then trials of 2 and 4 and the selection of 4 (performances 11 * p),
and so on.  2 is measured as 22, all the others as 32; the selection of `p = 9` is measured as 32. -/
example : (Hold.validate demo2 (fun p q => p > q) () () (Hold.start ⟨[], [], []⟩ true) [("p", 3)] true).2 = .ok 33 ∧
    (Hold.trialRun demo2 (fun p q => p > q) () () [([("p", 2)], false), ([("p", 4)], false), ([("p", 9)], true)]
      (Hold.validate demo2 (fun p q => p > q) () () (Hold.start ⟨[], [], []⟩ true) [("p", 3)] true).1).2 =
      .ok [22, 32, 32] := by
  refine ⟨?_, ?_⟩ <;> decide +kernel

end Nimble.Learner
