import Verif.Model.Holdout
import Verif.Props.Learner
import Verif.Props.Tuning

/-!
# C74: tuning with validation data

`nimble.train(…, tuning=Tuning(validation="data", …))`: every recorded performance is that of a learner
trained with exactly these arguments, and the learner returned is the one trained with the best ones.
-/

namespace Nimble.Learner

variable {K V D B P : Type} [DecidableEq K] [DecidableEq V]

/-! ## Specification -/

/-- `p` is the performance on `vx` of a learner trained on `x` with the arguments `a`. -/
def Performs (L : Lib K V D B P) (x vx : D) (a : PyDict K V) (p : P) : Prop :=
  ∃ b, L.train x a = .ok b ∧ L.outcome b vx [] a = .ok p

/-- The first of some argument sets that differs from `a`, if any, else `a`. -/
def nextOther (a : PyDict K V) (l : List (PyDict K V)) : PyDict K V := (l.find? (fun c => c ≠ a)).getD a

/-! ## Lemmas -/

theorem setAll_cons_not_mem (k : K) (v : V) : ∀ (a : List (K × V)) (d : PyDict K V),
    k ∉ PyDict.keys a → setAll ((k, v) :: d) a = (k, v) :: setAll d a
  | [], _, _ => rfl
  | (k', w) :: a, d, h => by
    rw [PyDict.keys_cons] at h
    have hne : k ≠ k' := fun e => h (by rw [e]; exact List.mem_cons_self)
    show setAll (PyDict.set ((k, v) :: d) k' w) a = _
    rw [show PyDict.set ((k, v) :: d) k' w = (k, v) :: PyDict.set d k' w by simp [PyDict.set, hne]]
    rw [setAll_cons_not_mem k v a _ (fun hm => h (List.mem_cons_of_mem _ hm))]
    rfl

theorem setAll_same : ∀ (d a : PyDict K V), PyDict.keys d = PyDict.keys a → (PyDict.keys a).Nodup →
    setAll d a = a
  | [], [], _, _ => rfl
  | [], _ :: _, h, _ => by simp [PyDict.keys] at h
  | _ :: _, [], h, _ => by simp [PyDict.keys] at h
  | (k, v) :: d, (k', w) :: a, h, hn => by
    rw [PyDict.keys_cons, PyDict.keys_cons] at h
    rw [PyDict.keys_cons, List.nodup_cons] at hn
    injection h with h1 h2
    dsimp only at h1 hn
    subst h1
    show setAll (PyDict.set ((k, v) :: d) k w) a = _
    rw [show PyDict.set ((k, v) :: d) k w = (k, w) :: d by simp [PyDict.set]]
    rw [setAll_cons_not_mem k w a d hn.1, setAll_same d a h2 hn.2]

theorem trainBackend_ok {L : Lib K V D B P} {x : D} {d : PyDict K V} {b : B}
    (h : L.trainBackend x d = .ok b) : L.train x d = .ok b := by
  unfold Lib.trainBackend at h
  simp only [bind, Except.bind] at h
  cases hc : L.check d with
  | error e => rw [hc] at h; cases h
  | ok _ => rw [hc] at h; exact h

/-- The addresses of learner `t` exist. -/
def InRange (m : Mem K V B) (t : Nat) : Prop :=
  (m.tl t).args < m.dicts.length ∧ (m.tl t).trans < m.dicts.length ∧
    (m.tl t).backend < m.backends.length ∧ (m.tl t).args ≠ (m.tl t).trans

/-- `m` continues `m0`: nothing that was there is changed. -/
structure Extends (m0 m : Mem K V B) : Prop where
  dicts : ∀ a < m0.dicts.length, m.dict a = m0.dict a
  backends : ∀ a < m0.backends.length, m.backends[a]? = m0.backends[a]?
  tls : ∀ a < m0.tls.length, m.tl a = m0.tl a

/-- Learner `t` has nothing of `m0`. -/
def Beyond (m0 m : Mem K V B) (t : Nat) : Prop :=
  m0.dicts.length ≤ (m.tl t).args ∧ m0.dicts.length ≤ (m.tl t).trans ∧
    m0.backends.length ≤ (m.tl t).backend ∧ m0.tls.length ≤ t

/-- What is true of the learner that is trained again and again. -/
structure Work (L : Lib K V D B P) (x : D) (m0 m : Mem K V B) (t : Nat) (a : PyDict K V) : Prop where
  exist : t < m.tls.length
  range : InRange m t
  stored : m.stored t = a
  args : m.arguments t = a
  model : ∃ b, m.backends[(m.tl t).backend]? = some b ∧ L.train x a = .ok b
  beyond : Beyond m0 m t
  ext : Extends m0 m

/-- A copy `u` of the learner `t`: its model is that of the arguments `a`; its dictionaries are still
those of `t`, or no longer, and then contain `s`. -/
structure Kept (L : Lib K V D B P) (x : D) (m : Mem K V B) (t u : Nat) (a s : PyDict K V) : Prop where
  exist : u < m.tls.length
  ne : u ≠ t
  range : InRange m u
  model : ∃ b, m.backends[(m.tl u).backend]? = some b ∧ L.train x a = .ok b
  stored : m.stored u = s
  args : m.arguments u = s
  share : (m.tl u = m.tl t ∧ s = a ∧ m.stored t = a) ∨
    (s ≠ a ∧ (m.tl u).args ≠ (m.tl t).args ∧ (m.tl u).args ≠ (m.tl t).trans ∧ (m.tl u).trans ≠ (m.tl t).args ∧
      (m.tl u).trans ≠ (m.tl t).trans)

theorem work_fresh (L : Lib K V D B P) {x : D} {m m' : Mem K V B} {t : Nat} {a : PyDict K V}
    (h : L.fresh m x a = (m', .ok t)) : Work L x m m' t a := by
  unfold Lib.fresh at h
  cases hb : L.trainBackend x a with
  | error e => rw [hb] at h; exact absurd (congrArg Prod.snd h) (by simp)
  | ok b =>
    rw [hb] at h
    have e1 := congrArg Prod.fst h
    have e2 := congrArg Prod.snd h
    dsimp only at e1 e2
    injection e2 with e2
    subst e1; subst e2
    have htl : (m.alloc b a a).1.tl (m.alloc b a a).2 =
        ⟨m.backends.length, m.dicts.length, m.dicts.length + 1⟩ := by
      rw [tl_alloc]; simp [Mem.alloc]
    have hst : (m.alloc b a a).1.stored (m.alloc b a a).2 = a := by
      unfold Mem.stored; rw [htl]; simp [Mem.alloc, Mem.dict]
    have har : (m.alloc b a a).1.arguments (m.alloc b a a).2 = a := by
      unfold Mem.arguments; rw [htl]; simp [Mem.alloc, Mem.dict]
    refine ⟨by simp [Mem.alloc], ?_, hst, har, ⟨b, ?_, trainBackend_ok hb⟩, ?_, ?_⟩
    · unfold InRange; rw [htl]; simp [Mem.alloc]
    · rw [htl]; simp [Mem.alloc]
    · unfold Beyond; rw [htl]; simp [Mem.alloc]
    · refine ⟨fun c hc => dict_append m hc, fun c hc => ?_, fun c hc => ?_⟩
      · unfold Mem.alloc; dsimp only; rw [List.getElem?_append_left hc]
      · rw [tl_alloc, if_neg (by omega)]

/-- One more training of the learner, with other values for the same arguments. -/
theorem work_retrain (L : Lib K V D B P) {x : D} {m0 m m' : Mem K V B} {t : Nat} {a c : PyDict K V}
    (hw : Work L x m0 m t a) (hk : PyDict.keys a = PyDict.keys c) (hn : (PyDict.keys c).Nodup)
    (h : L.retrain m t x c = (m', .ok ())) :
    Work L x m0 m' t c ∧
    ∀ u s a', Kept L x m t u a' s → c ≠ a →
      ∃ s', Kept L x m' t u a' s' ∧ s' = if s = a' ∧ m.tl u = m.tl t then c else s := by
  obtain ⟨f1, f2, f3, f4⟩ := assign_frame L (m.tl t) c m
  have hs : setAll (m.stored t) c = c := by rw [hw.stored]; exact setAll_same a c hk hn
  have hs' : setAll (m.arguments t) c = c := by rw [hw.args]; exact setAll_same a c hk hn
  obtain ⟨b, hb, hst, har, hbk, hlen⟩ := retrain_ok L hw.exist hw.range h
  rw [hs] at hb hst
  rcases retrain_cases L m t x c with ⟨_, e⟩ | ⟨_, e⟩ | ⟨b', ha, _, e⟩
  · rw [h] at e; exact absurd rfl e
  · rw [h] at e; exact absurd rfl e
  obtain ⟨g1, g2⟩ := assign_ok L (m.tl t) hw.range.2.2.2 c m hw.range.1 hw.range.2.1 ha
  rw [show m.dict (m.tl t).trans = m.stored t from rfl, hs] at g1
  rw [show m.dict (m.tl t).args = m.arguments t from rfl, hs'] at g2
  rw [h] at e
  have em := congrArg Prod.fst e
  dsimp only at em
  generalize hm1 : (L.assign (m.tl t) c m).1 = m1 at *
  generalize m1.stored t = d at em
  have htl : m'.tl t = ⟨m1.backends.length, m1.dicts.length, m1.dicts.length + 1⟩ := by
    rw [em, tl_renew, if_pos ⟨rfl, by rw [f1]; exact hw.exist⟩]
  have htu : ∀ u, u ≠ t → m'.tl u = m.tl u := by
    intro u hu
    rw [em, tl_renew, if_neg (by intro h; exact hu h.1.symm), tl_of_tls f1]
  have hdl : m'.dicts.length = m.dicts.length + 2 := by rw [em]; simp [Lib.renew, f3]
  have hbl : m'.backends.length = m.backends.length + 1 := by rw [em]; simp [Lib.renew, f2]
  have hdict : ∀ q < m.dicts.length, m'.dict q = m1.dict q := by
    intro q hq; rw [em]; exact dict_append m1 (by omega)
  have hback : ∀ q < m.backends.length, m'.backends[q]? = m.backends[q]? := by
    intro q hq; rw [em]; unfold Lib.renew; dsimp only
    rw [List.getElem?_append_left (by rw [f2]; exact hq), f2]
  have hbey := hw.beyond
  constructor
  · refine ⟨by rw [hlen]; exact hw.exist, ?_, hst, har, ⟨b, hbk, trainBackend_ok hb⟩, ?_, ?_⟩
    · unfold InRange; rw [htl, hdl, hbl, f2, f3]; dsimp only; omega
    · unfold Beyond at hbey ⊢
      have hr := hw.range
      unfold InRange at hr
      rw [htl, f2, f3]; dsimp only; omega
    · refine ⟨fun q hq => ?_, fun q hq => ?_, fun q hq => ?_⟩
      · unfold Beyond at hbey
        have hr := hw.range
        unfold InRange at hr
        rw [hdict q (by omega), f4 q (by omega) (by omega), hw.ext.dicts q hq]
      · have hr := hw.range
        unfold Beyond at hbey
        unfold InRange at hr
        rw [hback q (by omega), hw.ext.backends q hq]
      · unfold Beyond at hbey
        rw [htu q (by omega), hw.ext.tls q hq]
  · intro u s a' hkp hca
    have hr := hkp.range
    have hrt := hw.range
    unfold InRange at hr hrt
    obtain ⟨bu, hbu, htr⟩ := hkp.model
    have hmodel : ∃ b, m'.backends[(m'.tl u).backend]? = some b ∧ L.train x a' = .ok b :=
      ⟨bu, by rw [htu u hkp.ne, hback _ hr.2.2.1]; exact hbu, htr⟩
    have hrange : InRange m' u := by unfold InRange; rw [htu u hkp.ne, hdl, hbl]; omega
    have hstu : m'.stored u = m1.dict (m.tl u).trans := by
      unfold Mem.stored; rw [htu u hkp.ne]; exact hdict _ hr.2.1
    have haru : m'.arguments u = m1.dict (m.tl u).args := by
      unfold Mem.arguments; rw [htu u hkp.ne]; exact hdict _ hr.1
    have hapart : (m'.tl u).args ≠ (m'.tl t).args ∧ (m'.tl u).args ≠ (m'.tl t).trans ∧
        (m'.tl u).trans ≠ (m'.tl t).args ∧ (m'.tl u).trans ≠ (m'.tl t).trans := by
      rw [htu u hkp.ne, htl]; dsimp only; omega
    rcases hkp.share with ⟨e1, e2, e3⟩ | ⟨e0, e1, e2, e3, e4⟩
    · rw [if_pos ⟨e2, e1⟩]
      have haa : a' = a := by rw [← e3, hw.stored]
      refine ⟨c, ⟨by rw [hlen]; exact hkp.exist, hkp.ne, hrange, hmodel, ?_, ?_, .inr ⟨by rw [haa]; exact hca, hapart⟩⟩, rfl⟩
      · rw [hstu, e1, g1]
      · rw [haru, e1, g2]
    · rw [if_neg (by intro h; exact e0 h.1)]
      refine ⟨s, ⟨by rw [hlen]; exact hkp.exist, hkp.ne, hrange, hmodel, ?_, ?_, .inr ⟨e0, hapart⟩⟩, rfl⟩
      · rw [hstu, f4 _ e3 e4]; exact hkp.stored
      · rw [haru, f4 _ e1 e2]; exact hkp.args

theorem nextOther_nil (a : PyDict K V) : nextOther a [] = a := rfl

theorem nextOther_append (a c : PyDict K V) (l : List (PyDict K V)) :
    nextOther a (l ++ [c]) = if nextOther a l = a then c else nextOther a l := by
  unfold nextOther
  rw [List.find?_append]
  cases hf : l.find? (fun c => c ≠ a) with
  | none =>
    simp only [Option.none_or, Option.getD_none, if_true]
    by_cases h : c = a
    · simp [h]
    · simp [h]
  | some d =>
    have := List.find?_some hf
    have hd : d ≠ a := by simpa using this
    simp [hd]

theorem shallow_work (L : Lib K V D B P) {x : D} {m0 m : Mem K V B} {t : Nat} {a : PyDict K V}
    (hw : Work L x m0 m t a) :
    Work L x m0 (m.shallow t).1 t a ∧ Kept L x (m.shallow t).1 t (m.shallow t).2 a a := by
  have htl : ∀ u, u < m.tls.length → (m.shallow t).1.tl u = m.tl u := by
    intro u hu; unfold Mem.shallow Mem.tl; dsimp only; rw [List.getElem?_append_left hu]
  have htn : (m.shallow t).1.tl m.tls.length = m.tl t := by
    unfold Mem.shallow; simp [Mem.tl]
  have hl : (m.shallow t).1.tls.length = m.tls.length + 1 := by simp [Mem.shallow]
  have hex := hw.exist
  have hr := hw.range
  have hb := hw.beyond
  unfold InRange at hr
  unfold Beyond at hb
  constructor
  · refine ⟨by omega, ?_, ?_, ?_, ?_, ?_, ?_⟩
    · unfold InRange; rw [htl t hex]; exact hr
    · unfold Mem.stored; rw [htl t hex]; exact hw.stored
    · unfold Mem.arguments; rw [htl t hex]; exact hw.args
    · rw [htl t hex]; exact hw.model
    · unfold Beyond; rw [htl t hex]; exact hb
    · exact ⟨hw.ext.dicts, hw.ext.backends, fun c hc => by rw [htl c (by omega)]; exact hw.ext.tls c hc⟩
  · show Kept L x (m.shallow t).1 t m.tls.length a a
    refine ⟨by omega, by omega, ?_, ?_, ?_, ?_, .inl ⟨?_, rfl, ?_⟩⟩
    · unfold InRange; rw [htn]; exact hr
    · rw [htn]; exact hw.model
    · unfold Mem.stored; rw [htn]; exact hw.stored
    · unfold Mem.arguments; rw [htn]; exact hw.args
    · rw [htn, htl t hex]
    · unfold Mem.stored; rw [htl t hex]; exact hw.stored

/-! ## The invariant of the validator -/

/-- What the calls say about the best result: it was returned by one of the recorded calls, and later
recorded calls did not improve it. -/
def BestCall (isBest : P → P → Bool) (calls : List (PyDict K V × Bool)) (ps : List P) (p : P)
    (a : PyDict K V) (post : List (PyDict K V × Bool)) : Prop :=
  ∃ pre qs rs, calls = pre ++ (a, true) :: post ∧ ps = qs ++ p :: rs ∧ qs.length = pre.length ∧
    ∀ (i : Nat) c q, post[i]? = some c → rs[i]? = some q → c.2 = true → isBest q p = false

structure Inv (L : Lib K V D B P) (isBest : P → P → Bool) (x : D) (m0 : Mem K V B) (t : Nat)
    (calls : List (PyDict K V × Bool)) (ps : List P) (h : Hold K V B P) : Prop where
  learner : h.learner = some t
  base : h.base = some t
  inc : h.incremental = some false
  upd : h.updater = none ∨ h.updater = some t
  work : Work L x m0 h.mem t h.last
  len : ps.length = calls.length
  best : ∀ p a, h.record.best = some (p, a) → ∃ u post, h.bestTL = some u ∧
    BestCall isBest calls ps p a post ∧ Kept L x h.mem t u a (nextOther a (post.map Prod.fst))

/-- The training of a call when the learner exists. -/
theorem prepare_step (L : Lib K V D B P) {isBest : P → P → Bool} {x : D} {m0 : Mem K V B} {t : Nat}
    {calls : List (PyDict K V × Bool)} {ps : List P} {h h' : Hold K V B P} {c : PyDict K V}
    (hi : Inv L isBest x m0 t calls ps h) (hk : PyDict.keys h.last = PyDict.keys c)
    (hn : (PyDict.keys c).Nodup) (hp : Hold.prepare L x h c = (h', .ok ())) :
    h'.learner = some t ∧ h'.base = some t ∧ h'.incremental = some false ∧
    (h'.updater = none ∨ h'.updater = some t) ∧ h'.last = c ∧ Work L x m0 h'.mem t c ∧
    h'.record = h.record ∧ h'.bestTL = h.bestTL ∧
    ∀ u a post, Kept L x h.mem t u a (nextOther a (post.map Prod.fst)) →
      ∀ r : Bool, Kept L x h'.mem t u a (nextOther a ((post ++ [(c, r)]).map Prod.fst)) := by
  have hcase : ∃ h1 : Hold K V B P, h1 = { h with updater := h1.updater } ∧
      (h1.updater = none ∨ h1.updater = some t) ∧ Hold.againIfChanged L x h1 t c = (h', .ok ()) := by
    unfold Hold.prepare at hp
    rw [hi.learner] at hp
    dsimp only at hp
    cases hu : h.updater with
    | none =>
      rw [hu] at hp
      dsimp only at hp
      unfold Hold.second at hp
      rw [hi.inc] at hp
      exact ⟨{ h with updater := some t }, rfl, .inr rfl, by rw [hi.inc]; exact hp⟩
    | some u =>
      have : u = t := by
        rcases hi.upd with e | e
        · rw [hu] at e; cases e
        · rw [hu] at e; injection e
      subst this
      rw [hu] at hp
      dsimp only at hp
      unfold Hold.later at hp
      rw [hi.inc, if_neg (by simp)] at hp
      exact ⟨h, rfl, .inr hu, hp⟩
  obtain ⟨h1, e1, e2, e3⟩ := hcase
  have hmem : h1.mem = h.mem := by rw [e1]
  have hlast : h1.last = h.last := by rw [e1]
  unfold Hold.againIfChanged at e3
  split at e3
  · rename_i hne
    rw [hlast] at hne
    unfold Hold.again at e3
    cases hr : L.retrain h1.mem t x c with
    | mk m' res =>
      cases res with
      | error e => rw [hr] at e3; exact absurd (congrArg Prod.snd e3) (by simp)
      | ok v =>
        rw [hr] at e3
        have e4 := congrArg Prod.fst e3
        dsimp only at e4
        rw [hmem] at hr
        obtain ⟨w1, w2⟩ := work_retrain L hi.work hk hn hr
        subst e4
        refine ⟨by rw [e1]; exact hi.learner, by rw [e1]; exact hi.base, by rw [e1]; exact hi.inc, e2, rfl,
          w1, by rw [e1], by rw [e1], fun u a post hkp r => ?_⟩
        obtain ⟨s', k1, k2⟩ := w2 u _ a hkp hne
        rw [List.map_append]
        show Kept L x m' t u a (nextOther a (post.map Prod.fst ++ [c]))
        rw [nextOther_append]
        have : (nextOther a (post.map Prod.fst) = a ∧ h.mem.tl u = h.mem.tl t) ↔
            nextOther a (post.map Prod.fst) = a := by
          constructor
          · exact fun h => h.1
          · intro h
            rcases hkp.share with e | e
            · exact ⟨h, e.1⟩
            · exact absurd h e.1
        simp only [this] at k2
        rw [← k2]
        exact k1
  · rename_i heq
    have heq : c = h.last := by rw [← hlast]; exact Classical.not_not.1 heq
    have e4 := congrArg Prod.fst e3
    dsimp only at e4
    subst e4
    refine ⟨by rw [e1]; exact hi.learner, by rw [e1]; exact hi.base, by rw [e1]; exact hi.inc, e2,
      by rw [hlast, heq], by rw [hmem, heq]; exact hi.work, by rw [e1], by rw [e1], fun u a post hkp r => ?_⟩
    rw [hmem, List.map_append]
    show Kept L x h.mem t u a (nextOther a (post.map Prod.fst ++ [c]))
    rw [nextOther_append]
    split
    · rename_i hs
      have : c = a := by
        rcases hkp.share with e | e
        · rw [heq, ← hi.work.stored, e.2.2]
        · exact absurd hs e.1
      rw [this]
      rwa [hs] at hkp
    · exact hkp

theorem bestCall_snoc {isBest : P → P → Bool} {calls : List (PyDict K V × Bool)} {ps : List P} {p q : P}
    {a c : PyDict K V} {r : Bool} {post : List (PyDict K V × Bool)} (hl : ps.length = calls.length)
    (h : BestCall isBest calls ps p a post) (hq : r = true → isBest q p = false) :
    BestCall isBest (calls ++ [(c, r)]) (ps ++ [q]) p a (post ++ [(c, r)]) := by
  obtain ⟨pre, qs, rs, h1, h2, h3, h4⟩ := h
  have hrl : rs.length = post.length := by
    have := hl
    rw [h1, h2] at this
    simp at this
    omega
  refine ⟨pre, qs, rs ++ [q], by rw [h1]; simp, by rw [h2]; simp, h3, fun i c' q' hc hq' ht => ?_⟩
  by_cases hi : i < post.length
  · rw [List.getElem?_append_left hi] at hc
    rw [List.getElem?_append_left (by omega)] at hq'
    exact h4 i c' q' hc hq' ht
  · rw [List.getElem?_append_right (by omega)] at hc
    rw [List.getElem?_append_right (by omega)] at hq'
    have h0 : i - post.length = 0 := by
      by_contra hne
      rw [List.getElem?_eq_none (by simp; omega)] at hc
      cases hc
    rw [h0] at hc
    rw [hrl, h0] at hq'
    simp at hc hq'
    rw [← hc] at ht
    rw [← hq']
    exact hq ht

/-- The recording of a call keeps the invariant. -/
theorem note_step (L : Lib K V D B P) {isBest : P → P → Bool} {x : D} {m0 : Mem K V B} {t : Nat}
    {calls : List (PyDict K V × Bool)} {ps : List P} {h : Hold K V B P} {c : PyDict K V} {r : Bool} {p : P}
    (h1 : h.learner = some t) (h2 : h.base = some t) (h3 : h.incremental = some false)
    (h4 : h.updater = none ∨ h.updater = some t) (h5 : h.last = c) (h6 : Work L x m0 h.mem t c)
    (hl : ps.length = calls.length)
    (h7 : ∀ p' a, h.record.best = some (p', a) → ∃ u post, h.bestTL = some u ∧
      BestCall isBest calls ps p' a post ∧
      Kept L x h.mem t u a (nextOther a ((post ++ [(c, r)]).map Prod.fst))) :
    Inv L isBest x m0 t (calls ++ [(c, r)]) (ps ++ [p]) (Hold.note isBest h c r p) := by
  obtain ⟨w1, w2⟩ := shallow_work L h6
  unfold Hold.note
  dsimp only
  split
  · rename_i hc
    rw [Bool.and_eq_true] at hc
    have hk : h.keepBest = { h with mem := (h.mem.shallow t).1, bestTL := some (h.mem.shallow t).2 } := by
      unfold Hold.keepBest; rw [h2]
    rw [hk]
    refine ⟨h1, h2, h3, h4, by rw [← h5] at w1; exact w1, by simp [hl], fun p' a hb => ?_⟩
    have hb' : (h.record.validate isBest c r (.ok p)).1.best = some (p', a) := hb
    unfold VSt.validate at hb'
    rw [hc.1] at hb'
    simp only [if_true, hc.2] at hb'
    injection hb' with hb'
    injection hb' with e1 e2
    subst e1; subst e2
    refine ⟨_, [], rfl, ⟨calls, ps, [], by rw [hc.1], rfl, hl, fun i c' q hq => by simp at hq⟩, ?_⟩
    exact w2
  · rename_i hc
    refine ⟨h1, h2, h3, h4, by rw [← h5] at h6; exact h6, by simp [hl], fun p' a hb => ?_⟩
    have hb' : (h.record.validate isBest c r (.ok p)).1.best = some (p', a) := hb
    have hb2 : h.record.best = some (p', a) ∧ (r = true → isBest p p' = false) := by
      unfold VSt.validate at hb'
      cases r with
      | false => exact ⟨hb', by simp⟩
      | true =>
        have hc' : VSt.improves isBest h.record.best p = false := by simpa using hc
        simp only [if_true, hc'] at hb'
        have hb'' : h.record.best = some (p', a) := by simpa using hb'
        refine ⟨hb'', fun _ => ?_⟩
        rw [hb''] at hc'
        exact hc'
    obtain ⟨u, post, g1, g2, g3⟩ := h7 p' a hb2.1
    exact ⟨u, post ++ [(c, r)], g1, bestCall_snoc hl g2 hb2.2, g3⟩

theorem test_work {L : Lib K V D B P} {x vx : D} {m0 : Mem K V B} {t : Nat} {c : PyDict K V}
    {h : Hold K V B P} {p : P} (h1 : h.learner = some t) (hw : Work L x m0 h.mem t c)
    (ht : Hold.test L vx h = .ok p) : Performs L x vx c p := by
  obtain ⟨b, hb, htr⟩ := hw.model
  unfold Hold.test at ht
  rw [h1] at ht
  dsimp only at ht
  unfold Lib.apply at ht
  rw [hb, hw.stored] at ht
  exact ⟨b, htr, ht⟩

theorem validate_cases (L : Lib K V D B P) {isBest : P → P → Bool} {x vx : D} {h h' : Hold K V B P}
    {c : PyDict K V} {r : Bool} {p : P} (hv : Hold.validate L isBest x vx h c r = (h', .ok p)) :
    ∃ h1, Hold.prepare L x h c = (h1, .ok ()) ∧ Hold.test L vx h1 = .ok p ∧ h' = Hold.note isBest h1 c r p := by
  unfold Hold.validate Hold.judged at hv
  cases hp : Hold.prepare L x h c with
  | mk h1 res =>
    rw [hp] at hv
    cases res with
    | error e => exact absurd (congrArg Prod.snd hv) (by simp)
    | ok v =>
      dsimp only at hv
      cases ht : Hold.test L vx h1 with
      | error e => rw [ht] at hv; exact absurd (congrArg Prod.snd hv) (by simp)
      | ok q =>
        rw [ht] at hv
        have e1 := congrArg Prod.fst hv
        have e2 := congrArg Prod.snd hv
        dsimp only at e1 e2
        injection e2 with e2
        subst e2
        exact ⟨h1, rfl, ht, e1.symm⟩

theorem validate_step (L : Lib K V D B P) {isBest : P → P → Bool} {x vx : D} {m0 : Mem K V B} {t : Nat}
    {calls : List (PyDict K V × Bool)} {ps : List P} {h h' : Hold K V B P} {c : PyDict K V} {r : Bool} {p : P}
    (hi : Inv L isBest x m0 t calls ps h) (hk : PyDict.keys h.last = PyDict.keys c)
    (hn : (PyDict.keys c).Nodup) (hv : Hold.validate L isBest x vx h c r = (h', .ok p)) :
    Inv L isBest x m0 t (calls ++ [(c, r)]) (ps ++ [p]) h' ∧ Performs L x vx c p ∧ h'.last = c ∧
    h'.record = (h.record.validate isBest c r (.ok p)).1 := by
  obtain ⟨h1, hp, ht, e⟩ := validate_cases L hv
  obtain ⟨g1, g2, g3, g4, g5, g6, g7, g8, g9⟩ := prepare_step L hi hk hn hp
  have hinv := note_step (isBest := isBest) (r := r) (p := p) L g1 g2 g3 g4 g5 g6 hi.len
    (fun p' a hb => by
      rw [g7] at hb
      obtain ⟨u, post, k1, k2, k3⟩ := hi.best p' a hb
      exact ⟨u, post, by rw [g8]; exact k1, k2, g9 u a post k3 r⟩)
  rw [← e] at hinv
  refine ⟨hinv, test_work g1 g6 ht, ?_, ?_⟩
  · rw [e, ← g5]; unfold Hold.note Hold.keepBest; dsimp only; rw [g2]; split <;> rfl
  · rw [e, ← g7]; unfold Hold.note; dsimp only; split <;> rfl

theorem first_step (L : Lib K V D B P) {isBest : P → P → Bool} {x vx : D} {m0 : Mem K V B}
    {h' : Hold K V B P} {c : PyDict K V} {r : Bool} {p : P}
    (hv : Hold.validate L isBest x vx (Hold.start m0 false) c r = (h', .ok p)) :
    ∃ t, Inv L isBest x m0 t [(c, r)] [p] h' ∧ Performs L x vx c p ∧ h'.last = c ∧
      h'.record = (VSt.init.validate isBest c r (.ok p)).1 := by
  obtain ⟨h1, hp, ht, e⟩ := validate_cases L hv
  unfold Hold.prepare at hp
  rw [show (Hold.start m0 false : Hold K V B P).learner = none from rfl] at hp
  dsimp only at hp
  unfold Hold.first at hp
  rw [show (Hold.start m0 false : Hold K V B P).mem = m0 from rfl] at hp
  cases hf : L.fresh m0 x c with
  | mk m' res =>
    cases res with
    | error er => rw [hf] at hp; exact absurd (congrArg Prod.snd hp) (by simp)
    | ok t =>
      rw [hf] at hp
      have e1 := congrArg Prod.fst hp
      dsimp only at e1
      have hw := work_fresh L hf
      have k6 : Work L x m0 h1.mem t c := by rw [← e1]; exact hw
      have k1 : h1.learner = some t := by rw [← e1]
      have k2 : h1.base = some t := by rw [← e1]
      have k3 : h1.incremental = some false := by rw [← e1]; rfl
      have k5 : h1.last = c := by rw [← e1]
      have k7 : h1.record = VSt.init := by rw [← e1]; rfl
      have hinv := note_step (isBest := isBest) (calls := []) (ps := []) (r := r) (p := p) L k1 k2 k3
        (by rw [← e1]; exact .inl rfl) k5 k6 rfl
        (fun p' a hb => by rw [k7] at hb; cases hb)
      rw [← e] at hinv
      refine ⟨t, hinv, test_work k1 k6 ht, ?_, ?_⟩
      · rw [e, ← k5]; unfold Hold.note Hold.keepBest; dsimp only; rw [k2]; split <;> rfl
      · rw [e, ← k7]; unfold Hold.note; dsimp only; split <;> rfl

theorem run_cons (L : Lib K V D B P) {isBest : P → P → Bool} {x vx : D} {h h' : Hold K V B P}
    {c : PyDict K V × Bool} {cs : List (PyDict K V × Bool)} {ps : List P}
    (hr : Hold.run L isBest x vx (c :: cs) h = (h', .ok ps)) :
    ∃ h1 p ps', Hold.validate L isBest x vx h c.1 c.2 = (h1, .ok p) ∧
      Hold.run L isBest x vx cs h1 = (h', .ok ps') ∧ ps = p :: ps' := by
  unfold Hold.run at hr
  cases hv : Hold.validate L isBest x vx h c.1 c.2 with
  | mk h1 res =>
    rw [hv] at hr
    cases res with
    | error e => exact absurd (congrArg Prod.snd hr) (by simp)
    | ok p =>
      dsimp only at hr
      cases hr2 : Hold.run L isBest x vx cs h1 with
      | mk h2 res2 =>
        rw [hr2] at hr
        cases res2 with
        | error e => exact absurd (congrArg Prod.snd hr) (by simp [Except.map])
        | ok ps' =>
          have e1 := congrArg Prod.fst hr
          have e2 := congrArg Prod.snd hr
          dsimp only [Except.map] at e1 e2
          injection e2 with e2
          subst e1
          exact ⟨h1, p, ps', rfl, hr2, e2.symm⟩

theorem run_steps (L : Lib K V D B P) {isBest : P → P → Bool} {x vx : D} {m0 : Mem K V B} {t : Nat}
    {ks : List K} (hks : ks.Nodup) : ∀ (cs : List (PyDict K V × Bool)) {calls : List (PyDict K V × Bool)}
    {ps qs : List P} {h h' : Hold K V B P}, Inv L isBest x m0 t calls ps h → PyDict.keys h.last = ks →
    (∀ c ∈ cs, PyDict.keys c.1 = ks) → Hold.run L isBest x vx cs h = (h', .ok qs) →
    Inv L isBest x m0 t (calls ++ cs) (ps ++ qs) h' ∧ qs.length = cs.length ∧
    (∀ (i : Nat) c q, cs[i]? = some c → qs[i]? = some q → Performs L x vx c.1 q) ∧
    h'.record = (List.zip cs qs).foldl (fun st e => (st.validate isBest e.1.1 e.1.2 (.ok e.2)).1) h.record
  | [], calls, ps, qs, h, h', hi, _, _, hr => by
    unfold Hold.run at hr
    have e1 := congrArg Prod.fst hr
    have e2 := congrArg Prod.snd hr
    dsimp only at e1 e2
    injection e2 with e2
    subst e1; subst e2
    simpa using hi
  | c :: cs, calls, ps, qs, h, h', hi, hk, hall, hr => by
    obtain ⟨h1, p, ps', hv, hr', e⟩ := run_cons L hr
    have hkc := hall c List.mem_cons_self
    obtain ⟨i1, i2, i3, i4⟩ := validate_step L hi (by rw [hk, hkc]) (by rw [hkc]; exact hks) hv
    obtain ⟨j1, j2, j3, j4⟩ := run_steps L hks cs i1 (by rw [i3]; exact hkc)
      (fun c' hc' => hall c' (List.mem_cons_of_mem _ hc')) hr'
    subst e
    refine ⟨by simpa using j1, by simp [j2], fun i c' q hc hq => ?_, ?_⟩
    · cases i with
      | zero =>
        simp at hc hq
        rw [← hc, ← hq]; exact i2
      | succ i =>
        simp at hc hq
        exact j3 i c' q hc hq
    · rw [j4, i4]; rfl

/-! ## C74 -/

/-- All facts about a run of the validator. -/
theorem run_start (L : Lib K V D B P) {isBest : P → P → Bool} {x vx : D} {m0 : Mem K V B}
    {ks : List K} (hks : ks.Nodup) {calls : List (PyDict K V × Bool)} {ps : List P} {h' : Hold K V B P}
    (hall : ∀ c ∈ calls, PyDict.keys c.1 = ks)
    (hr : Hold.run L isBest x vx calls (Hold.start m0 false) = (h', .ok ps)) :
    ps.length = calls.length ∧
    (∀ (i : Nat) c q, calls[i]? = some c → ps[i]? = some q → Performs L x vx c.1 q) ∧
    h'.record = VSt.runAll isBest ((List.zip calls ps).map (fun e => (e.1.1, e.1.2, .ok e.2))) ∧
    (calls ≠ [] → ∃ t, Inv L isBest x m0 t calls ps h') ∧ (calls = [] → h' = Hold.start m0 false) := by
  cases calls with
  | nil =>
    unfold Hold.run at hr
    have e1 := congrArg Prod.fst hr
    have e2 := congrArg Prod.snd hr
    dsimp only at e1 e2
    injection e2 with e2
    subst e1; subst e2
    exact ⟨rfl, fun i c q hc => by simp at hc, rfl, fun h => absurd rfl h, fun _ => rfl⟩
  | cons c cs =>
    obtain ⟨h1, p, ps', hv, hr', e⟩ := run_cons L hr
    obtain ⟨t, i1, i2, i3, i4⟩ := first_step L hv
    obtain ⟨j1, j2, j3, j4⟩ := run_steps L hks cs i1 (by rw [i3]; exact hall c List.mem_cons_self)
      (fun c' hc' => hall c' (List.mem_cons_of_mem _ hc')) hr'
    subst e
    refine ⟨by simp [j2], fun i c' q hc hq => ?_, ?_, fun _ => ⟨t, j1⟩, fun h => by cases h⟩
    · cases i with
      | zero =>
        simp at hc hq
        rw [← hc, ← hq]; exact i2
      | succ i =>
        simp at hc hq
        exact j3 i c' q hc hq
    · rw [j4, i4]
      unfold VSt.runAll
      rw [List.foldl_map]
      rfl

/-- C74. Each performance reported (and recorded) for a set of arguments is that of a learner trained on
the training data with exactly these arguments, however many other sets were validated before; the best
result is chosen among the recorded ones as in C23.  For argument sets with the same names, without
incremental training. -/
theorem C74_performances (L : Lib K V D B P) {isBest : P → P → Bool} {x vx : D} {m0 : Mem K V B}
    {ks : List K} (hks : ks.Nodup) {calls : List (PyDict K V × Bool)} {ps : List P} {h' : Hold K V B P}
    (hall : ∀ c ∈ calls, PyDict.keys c.1 = ks)
    (hr : Hold.run L isBest x vx calls (Hold.start m0 false) = (h', .ok ps)) :
    ps.length = calls.length ∧
    (∀ (i : Nat) c q, calls[i]? = some c → ps[i]? = some q → Performs L x vx c.1 q) ∧
    h'.record = VSt.runAll isBest ((List.zip calls ps).map (fun e => (e.1.1, e.1.2, .ok e.2))) :=
  let ⟨h1, h2, h3, _, _⟩ := run_start L hks hall hr
  ⟨h1, h2, h3⟩

/-- C74. The learner returned (`bestTrainedLearner`) has the model trained with the best arguments, for
which the best result was measured.  Its dictionaries of arguments are those of the first set
validated after the best one that differs from it (`nextOther`), so its `arguments` and what `apply` does
are right only if there is none. -/
theorem C74_returned_partial (L : Lib K V D B P) {isBest : P → P → Bool} {x vx : D} {m0 : Mem K V B}
    {ks : List K} (hks : ks.Nodup) {calls : List (PyDict K V × Bool)} {ps : List P} {h' : Hold K V B P}
    (hall : ∀ c ∈ calls, PyDict.keys c.1 = ks)
    (hr : Hold.run L isBest x vx calls (Hold.start m0 false) = (h', .ok ps)) {p : P} {a : PyDict K V}
    (hb : h'.record.best = some (p, a)) :
    ∃ u b post, h'.bestTL = some u ∧ BestCall isBest calls ps p a post ∧
      L.train x a = .ok b ∧ L.outcome b vx [] a = .ok p ∧
      h'.mem.arguments u = nextOther a (post.map Prod.fst) ∧
      ∀ y new, L.apply h'.mem u y new = L.outcome b y new (nextOther a (post.map Prod.fst)) := by
  obtain ⟨h1, h2, h3, h4, h5⟩ := run_start L hks hall hr
  have hne : calls ≠ [] := by
    rintro rfl
    rw [h5 rfl] at hb
    cases hb
  obtain ⟨t, hi⟩ := h4 hne
  obtain ⟨u, post, g1, g2, g3⟩ := hi.best p a hb
  obtain ⟨b, hb1, hb2⟩ := g3.model
  obtain ⟨pre, qs, rs, e1, e2, e3, e4⟩ := g2
  have hperf : Performs L x vx a p := by
    have hc : calls[pre.length]? = some (a, true) := by rw [e1]; simp
    have hq : ps[pre.length]? = some p := by rw [e2, ← e3]; simp
    exact h2 _ _ _ hc hq
  obtain ⟨b', hb3, hb4⟩ := hperf
  rw [hb2] at hb3
  injection hb3 with hb3
  subst hb3
  refine ⟨u, b, post, g1, ⟨pre, qs, rs, e1, e2, e3, e4⟩, hb2, hb4, g3.args, fun y new => ?_⟩
  unfold Lib.apply
  rw [hb1, g3.stored]

theorem nextOther_eq {a : PyDict K V} {l : List (PyDict K V)} (h : ∀ c ∈ l, c = a) : nextOther a l = a := by
  unfold nextOther
  rw [List.find?_eq_none.2 (fun c hc => by simp [h c hc])]
  rfl

/-- C74. If the learner's `apply` takes none of the arguments, the learner returned predicts like a learner
trained with the best arguments, and testing it gives the best result. -/
theorem C74_returned_predictions (L : Lib K V D B P) (hap : L.applyParams = []) {isBest : P → P → Bool}
    {x vx : D} {m0 : Mem K V B} {ks : List K} (hks : ks.Nodup) {calls : List (PyDict K V × Bool)} {ps : List P}
    {h' : Hold K V B P} (hall : ∀ c ∈ calls, PyDict.keys c.1 = ks)
    (hr : Hold.run L isBest x vx calls (Hold.start m0 false) = (h', .ok ps)) {p : P} {a : PyDict K V}
    (hb : h'.record.best = some (p, a)) :
    ∃ u b, h'.bestTL = some u ∧ L.train x a = .ok b ∧
      (∀ y new, L.apply h'.mem u y new = L.outcome b y new a) ∧ L.apply h'.mem u vx [] = .ok p := by
  obtain ⟨u, b, post, h1, h2, h3, h4, h5, h6⟩ := C74_returned_partial L hks hall hr hb
  have hsame : ∀ y new s, L.outcome b y new s = L.outcome b y new a := by
    intro y new s
    unfold Lib.outcome Lib.methodArgs
    rw [hap]
    rfl
  exact ⟨u, b, h1, h3, fun y new => (h6 y new).trans (hsame y new _), by rw [h6, hsame]; exact h4⟩

/-- C74. No learner that existed before is changed by the tuning. -/
theorem C74_others_unchanged (L : Lib K V D B P) {isBest : P → P → Bool} {x vx : D} {m0 : Mem K V B}
    {ks : List K} (hks : ks.Nodup) {calls : List (PyDict K V × Bool)} {ps : List P} {h' : Hold K V B P}
    (hall : ∀ c ∈ calls, PyDict.keys c.1 = ks)
    (hr : Hold.run L isBest x vx calls (Hold.start m0 false) = (h', .ok ps)) {u : Nat}
    (hu : u < m0.tls.length) (hru : InRange m0 u) : SameFor L u m0 h'.mem := by
  obtain ⟨_, _, _, h4, h5⟩ := run_start L hks hall hr
  by_cases hne : calls = []
  · rw [h5 hne]; exact ⟨rfl, fun _ _ => rfl⟩
  · obtain ⟨t, hi⟩ := h4 hne
    have he := hi.work.ext
    unfold InRange at hru
    exact apply_congr L (he.tls u hu) (he.backends _ hru.2.2.1) (he.dicts _ hru.1) (he.dicts _ hru.2.1)

/-- A learner whose model and whose `apply` both depend on `p`. -/
def demo2 : Lib String Nat Unit Nat Nat where
  params := ["p"]
  defaults := []
  applyParams := ["p"]
  isTune := fun _ => false
  train := fun _ a => .ok ((PyDict.get? a "p").getD 0)
  inc := fun _ _ _ => .error .TypeError
  out := fun b _ a => .ok (10 * b + (PyDict.get? a "p").getD 0)

/-- The hypotheses of the theorems are met by three validations; the performances are right. -/
example : (Hold.run demo2 (fun p q => p > q) () () [([("p", 3)], true), ([("p", 7)], true), ([("p", 1)], true)]
    (Hold.start ⟨[], [], []⟩ false)).2 = .ok [33, 77, 11] := by decide +kernel

/-- C74. The learner returned is not the one that was best: with `p` = 3, 7, 1 and the higher performance
being the better one, `p = 7` is best with 77, but the learner returned has `arguments` `{p: 1}` and its
performance on the same data is 71. -/
theorem C74_returned_violated :
    let h := (Hold.run demo2 (fun p q => p > q) () ()
      [([("p", 3)], true), ([("p", 7)], true), ([("p", 1)], true)] (Hold.start ⟨[], [], []⟩ false)).1
    h.record.best = some (77, [("p", 7)]) ∧ h.bestTL = some 2 ∧ h.mem.arguments 2 = [("p", 1)] ∧
    demo2.apply h.mem 2 () [] = .ok 71 := by
  refine ⟨?_, ?_, ?_, ?_⟩ <;> decide +kernel

end Nimble.Learner
