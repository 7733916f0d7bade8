import Verif.Model.Learner
import Verif.Lemmas.Py
import Mathlib.Data.Rat.Defs

/-!
# C73: trained learners

`retrain` keeps previously set argument values unless they are overridden and trains on the new data
only; a learner is changed by calls on that learner only.
-/

namespace Nimble.Learner

variable {K V D B P : Type} [DecidableEq K]

/-! ## Specification -/

/-- The value of an argument after it was given in some of the dictionaries, in this order. -/
def lastSet : List (PyDict K V) → K → Option V
  | [], _ => none
  | a :: l, k => (lastSet l k).or (PyDict.get? a k)

/-- A user's call. -/
inductive Op (K V D : Type) where
  | train (x : D) (args : PyDict K V)
  | retrain (t : Nat) (x : D) (args : PyDict K V)
  | inc (t : Nat) (x : D) (args : PyDict K V)

/-- The learner a call is made on. -/
def Op.on : Op K V D → Option Nat
  | .train _ _ => none
  | .retrain t _ _ => some t
  | .inc t _ _ => some t

/-- The call, whether it fails or not. -/
def Op.run (L : Lib K V D B P) (m : Mem K V B) : Op K V D → Mem K V B
  | .train x a => (L.fresh m x a).1
  | .retrain t x a => (L.retrain m t x a).1
  | .inc t x a => (L.incrementalTrain m t x a).1

/-- A history of calls. -/
def runOps (L : Lib K V D B P) (m : Mem K V B) (ops : List (Op K V D)) : Mem K V B :=
  ops.foldl (fun m o => o.run L m) m

/-- No two learners share a backend or a dictionary. -/
structure Separate (m : Mem K V B) : Prop where
  range : ∀ i < m.tls.length, (m.tl i).args < m.dicts.length ∧ (m.tl i).trans < m.dicts.length ∧
    (m.tl i).backend < m.backends.length ∧ (m.tl i).args ≠ (m.tl i).trans
  apart : ∀ i < m.tls.length, ∀ j < m.tls.length, i ≠ j →
    (m.tl i).args ≠ (m.tl j).args ∧ (m.tl i).args ≠ (m.tl j).trans ∧ (m.tl i).trans ≠ (m.tl j).trans ∧
    (m.tl i).backend ≠ (m.tl j).backend

/-- Two memories are the same for a user who looks at learner `u`. -/
def SameFor (L : Lib K V D B P) (u : Nat) (m m' : Mem K V B) : Prop :=
  m'.arguments u = m.arguments u ∧ ∀ x new, L.apply m' u x new = L.apply m u x new

/-! ## Lemmas -/

theorem dict_put (m : Mem K V B) (a b : Nat) (k : K) (v : V) :
    (m.put a k v).dict b = if a = b ∧ a < m.dicts.length then PyDict.set (m.dict b) k v else m.dict b := by
  unfold Mem.put Mem.dict
  dsimp only
  rw [List.getElem?_modify]
  by_cases h : a = b
  · subst h
    by_cases ha : a < m.dicts.length
    · simp [ha]
    · simp [ha]
  · simp [h]

theorem put_tls (m : Mem K V B) (a : Nat) (k : K) (v : V) : (m.put a k v).tls = m.tls := rfl
theorem put_backends (m : Mem K V B) (a : Nat) (k : K) (v : V) : (m.put a k v).backends = m.backends := rfl
theorem put_length (m : Mem K V B) (a : Nat) (k : K) (v : V) :
    (m.put a k v).dicts.length = m.dicts.length := by simp [Mem.put]

/-- All pairs of a list written into a dictionary. -/
def setAll (d : PyDict K V) (l : List (K × V)) : PyDict K V := l.foldl (fun d p => PyDict.set d p.1 p.2) d

theorem get?_setAll {l : PyDict K V} (hn : (PyDict.keys l).Nodup) : ∀ (d : PyDict K V) (k : K),
    PyDict.get? (setAll d l) k = (PyDict.get? l k).or (PyDict.get? d k) := by
  induction l with
  | nil => intro d k; rfl
  | cons p l ih =>
    intro d k
    obtain ⟨k', v⟩ := p
    rw [PyDict.keys_cons, List.nodup_cons] at hn
    show PyDict.get? (setAll (PyDict.set d k' v) l) k = _
    rw [ih hn.2, PyDict.get?_set]
    by_cases h : k' = k
    · subst h
      have : PyDict.get? l k' = none := by
        cases hg : PyDict.get? l k' with
        | none => rfl
        | some w => exact absurd (PyDict.mem_keys.2 (by simp [hg])) hn.1
      simp [PyDict.get?, this]
    · simp [PyDict.get?, h]

theorem assign_frame (L : Lib K V D B P) (t : TL) : ∀ (l : List (K × V)) (m : Mem K V B),
    (L.assign t l m).1.tls = m.tls ∧ (L.assign t l m).1.backends = m.backends ∧
    (L.assign t l m).1.dicts.length = m.dicts.length ∧
    ∀ b, b ≠ t.args → b ≠ t.trans → (L.assign t l m).1.dict b = m.dict b
  | [], m => ⟨rfl, rfl, rfl, fun _ _ _ => rfl⟩
  | (k, v) :: l, m => by
    unfold Lib.assign
    split
    · exact ⟨rfl, rfl, rfl, fun _ _ _ => rfl⟩
    · obtain ⟨h1, h2, h3, h4⟩ := assign_frame L t l ((m.put t.args k v).put t.trans k v)
      refine ⟨h1, h2, by rw [h3, put_length, put_length], fun b hb hb' => ?_⟩
      rw [h4 b hb hb', dict_put, dict_put]
      rw [if_neg (by intro h; exact hb' h.1.symm), if_neg (by intro h; exact hb h.1.symm)]

theorem assign_ok (L : Lib K V D B P) (t : TL) (hne : t.args ≠ t.trans) :
    ∀ (l : List (K × V)) (m : Mem K V B), t.args < m.dicts.length → t.trans < m.dicts.length →
    (L.assign t l m).2 = .ok () →
    (L.assign t l m).1.dict t.trans = setAll (m.dict t.trans) l ∧
    (L.assign t l m).1.dict t.args = setAll (m.dict t.args) l
  | [], m, _, _, _ => ⟨rfl, rfl⟩
  | (k, v) :: l, m, ha, ht, h => by
    unfold Lib.assign at h ⊢
    split at h
    · cases h
    · rename_i hv
      rw [if_neg hv]
      obtain ⟨h1, h2⟩ := assign_ok L t hne l ((m.put t.args k v).put t.trans k v)
        (by rw [put_length, put_length]; exact ha) (by rw [put_length, put_length]; exact ht) h
      rw [h1, h2, dict_put, dict_put, dict_put, dict_put, put_length]
      rw [if_pos ⟨rfl, ht⟩, if_neg (by intro h; exact hne h.1), if_neg (by intro h; exact hne h.1.symm),
        if_pos ⟨rfl, ha⟩]
      exact ⟨rfl, rfl⟩

theorem apply_congr (L : Lib K V D B P) {m m' : Mem K V B} {u : Nat} (h1 : m'.tl u = m.tl u)
    (h2 : m'.backends[(m.tl u).backend]? = m.backends[(m.tl u).backend]?)
    (h3 : m'.dict (m.tl u).args = m.dict (m.tl u).args)
    (h4 : m'.dict (m.tl u).trans = m.dict (m.tl u).trans) : SameFor L u m m' := by
  refine ⟨by unfold Mem.arguments; rw [h1, h3], fun x new => ?_⟩
  unfold Lib.apply Mem.stored
  rw [h1, h2, h4]

theorem dict_append (m : Mem K V B) {l : List (PyDict K V)} {bs : List B} {ts : List TL} {a : Nat}
    (h : a < m.dicts.length) : Mem.dict ⟨m.dicts ++ l, bs, ts⟩ a = m.dict a := by
  unfold Mem.dict
  dsimp only
  rw [List.getElem?_append_left h]

theorem retrain_cases (L : Lib K V D B P) (m : Mem K V B) (t : Nat) (x : D) (a : PyDict K V) :
    ((L.retrain m t x a).1 = m ∧ (L.retrain m t x a).2 ≠ .ok ()) ∨
    ((L.retrain m t x a).1 = (L.assign (m.tl t) a m).1 ∧ (L.retrain m t x a).2 ≠ .ok ()) ∨
    ∃ b, (L.assign (m.tl t) a m).2 = .ok () ∧
      L.trainBackend x ((L.assign (m.tl t) a m).1.stored t) = .ok b ∧
      L.retrain m t x a = (Lib.renew (L.assign (m.tl t) a m).1 t b a ((L.assign (m.tl t) a m).1.stored t), .ok ()) := by
  unfold Lib.retrain
  cases hc : L.check a with
  | error e => left; dsimp only; exact ⟨rfl, by simp⟩
  | ok _ =>
    dsimp only
    unfold Lib.andThen
    cases ha : (L.assign (m.tl t) a m).2 with
    | error e => right; left; dsimp only; exact ⟨rfl, by simp⟩
    | ok _ =>
      dsimp only
      unfold Lib.finish
      cases hb : L.trainBackend x ((L.assign (m.tl t) a m).1.stored t) with
      | error e => right; left; dsimp only; exact ⟨rfl, by simp⟩
      | ok b => right; right; exact ⟨b, rfl, rfl, rfl⟩

theorem tl_renew (m : Mem K V B) (t u : Nat) (b : B) (a d : PyDict K V) :
    (Lib.renew m t b a d).tl u = if t = u ∧ t < m.tls.length then
      ⟨m.backends.length, m.dicts.length, m.dicts.length + 1⟩ else m.tl u := by
  unfold Lib.renew Mem.tl
  dsimp only
  rw [List.getElem?_set]
  by_cases h : t = u
  · subst h
    by_cases ht : t < m.tls.length
    · simp [ht]
    · simp [ht]
  · simp [h]

theorem tl_of_tls {m m' : Mem K V B} (h : m'.tls = m.tls) (u : Nat) : m'.tl u = m.tl u := by
  unfold Mem.tl; rw [h]

/-- Changing dictionaries in place keeps learners apart. -/
theorem Separate.of_eq {m m' : Mem K V B} (h : Separate m) (h1 : m'.tls = m.tls)
    (h2 : m'.backends.length = m.backends.length) (h3 : m'.dicts.length = m.dicts.length) : Separate m' := by
  constructor
  · intro i hi; rw [tl_of_tls h1, h2, h3]; exact h.range i (h1 ▸ hi)
  · intro i hi j hj hij; rw [tl_of_tls h1, tl_of_tls h1]; exact h.apart i (h1 ▸ hi) j (h1 ▸ hj) hij

theorem separate_renew {m : Mem K V B} (h : Separate m) {t : Nat} (b : B) (a d : PyDict K V) :
    Separate (Lib.renew m t b a d) := by
  have hl : (Lib.renew m t b a d).tls.length = m.tls.length := by simp [Lib.renew]
  have hd : (Lib.renew m t b a d).dicts.length = m.dicts.length + 2 := by simp [Lib.renew]
  have hb : (Lib.renew m t b a d).backends.length = m.backends.length + 1 := by simp [Lib.renew]
  constructor
  · intro i hi
    rw [hl] at hi
    have := h.range i hi
    rw [tl_renew, hd, hb]
    split
    · dsimp only; omega
    · omega
  · intro i hi j hj hij
    rw [hl] at hi hj
    have h1 := h.range i hi
    have h2 := h.range j hj
    have h3 := h.apart i hi j hj hij
    rw [tl_renew, tl_renew]
    split <;> split
    · rename_i p q; exact absurd (p.1.symm.trans q.1) hij
    · dsimp only; omega
    · dsimp only; omega
    · exact h3

theorem tl_alloc (m : Mem K V B) (b : B) (a d : PyDict K V) (u : Nat) :
    (m.alloc b a d).1.tl u = if u = m.tls.length then
      ⟨m.backends.length, m.dicts.length, m.dicts.length + 1⟩ else m.tl u := by
  unfold Mem.alloc Mem.tl
  dsimp only
  by_cases h : u < m.tls.length
  · rw [List.getElem?_append_left h, if_neg (by omega)]
  · by_cases h' : u = m.tls.length
    · subst h'; simp
    · rw [if_neg h', List.getElem?_eq_none (by simp; omega), List.getElem?_eq_none (by omega)]

theorem separate_alloc {m : Mem K V B} (h : Separate m) (b : B) (a d : PyDict K V) :
    Separate (m.alloc b a d).1 := by
  have hl : (m.alloc b a d).1.tls.length = m.tls.length + 1 := by simp [Mem.alloc]
  have hd : (m.alloc b a d).1.dicts.length = m.dicts.length + 2 := by simp [Mem.alloc]
  have hb : (m.alloc b a d).1.backends.length = m.backends.length + 1 := by simp [Mem.alloc]
  constructor
  · intro i hi
    rw [tl_alloc, hd, hb]
    split
    · dsimp only; omega
    · have := h.range i (by omega); omega
  · intro i hi j hj hij
    rw [tl_alloc, tl_alloc]
    split <;> split
    · omega
    · have := h.range j (by omega); dsimp only; omega
    · have := h.range i (by omega); dsimp only; omega
    · exact h.apart i (by omega) j (by omega) hij

theorem update_frame (a : Nat) : ∀ (l : List (K × V)) (m : Mem K V B),
    (Lib.update m a l).tls = m.tls ∧ (Lib.update m a l).backends = m.backends ∧
    (Lib.update m a l).dicts.length = m.dicts.length ∧
    (∀ b, b ≠ a → (Lib.update m a l).dict b = m.dict b) ∧
    (a < m.dicts.length → (Lib.update m a l).dict a = setAll (m.dict a) l)
  | [], m => ⟨rfl, rfl, rfl, fun _ _ => rfl, fun _ => rfl⟩
  | (k, v) :: l, m => by
    obtain ⟨h1, h2, h3, h4, h5⟩ := update_frame a l (m.put a k v)
    unfold Lib.update
    refine ⟨h1, h2, by rw [h3, put_length], fun b hb => ?_, fun ha => ?_⟩
    · rw [h4 b hb, dict_put, if_neg (by intro h; exact hb h.1.symm)]
    · rw [h5 (by rw [put_length]; exact ha), dict_put, if_pos ⟨rfl, ha⟩]; rfl

theorem incBackend_cases (L : Lib K V D B P) (m : Mem K V B) (t : Nat) (x : D) :
    (L.incBackend m t x).1 = m ∨
    ∃ b', (L.incBackend m t x).1 = { m with backends := m.backends.set (m.tl t).backend b' } := by
  unfold Lib.incBackend
  split
  · exact .inl rfl
  · split
    · exact .inl rfl
    · exact .inr ⟨_, rfl⟩

theorem fresh_cases (L : Lib K V D B P) (m : Mem K V B) (x : D) (a : PyDict K V) :
    (L.fresh m x a).1 = m ∨ ∃ b, (L.fresh m x a).1 = (m.alloc b a a).1 := by
  unfold Lib.fresh
  split
  · exact .inl rfl
  · exact .inr ⟨_, rfl⟩

/-! ## Isolation -/

/-- C73. A call on one learner, failing or not, changes no other learner, and learners stay apart. -/
theorem C73_isolation (L : Lib K V D B P) {m : Mem K V B} (h : Separate m) (o : Op K V D)
    (ho : ∀ t, o.on = some t → t < m.tls.length) :
    Separate (o.run L m) ∧ m.tls.length ≤ (o.run L m).tls.length ∧
    ∀ u < m.tls.length, o.on ≠ some u → SameFor L u m (o.run L m) := by
  cases o with
  | train x a =>
    show Separate (L.fresh m x a).1 ∧ m.tls.length ≤ (L.fresh m x a).1.tls.length ∧
      ∀ u < m.tls.length, _ → SameFor L u m (L.fresh m x a).1
    rcases fresh_cases L m x a with e | ⟨b, e⟩
    · rw [e]; exact ⟨h, le_refl _, fun u _ _ => ⟨rfl, fun _ _ => rfl⟩⟩
    · rw [e]
      refine ⟨separate_alloc h b a a, by simp [Mem.alloc], fun u hu _ => ?_⟩
      have hr := h.range u hu
      apply apply_congr
      · rw [tl_alloc, if_neg (by omega)]
      · unfold Mem.alloc; dsimp only; rw [List.getElem?_append_left hr.2.2.1]
      · exact dict_append m hr.1
      · exact dict_append m hr.2.1
  | retrain t x a =>
    have ht := ho t rfl
    have hrt := h.range t ht
    obtain ⟨f1, f2, f3, f4⟩ := assign_frame L (m.tl t) a m
    have hs : Separate (L.assign (m.tl t) a m).1 := h.of_eq f1 (by rw [f2]) f3
    have same : ∀ u < m.tls.length, u ≠ t → SameFor L u m (L.assign (m.tl t) a m).1 := by
      intro u hu hut
      have ha := h.apart u hu t ht hut
      have ha' := h.apart t ht u hu (Ne.symm hut)
      exact apply_congr L (tl_of_tls f1 u) (by rw [f2]) (f4 _ ha.1 ha.2.1) (f4 _ ha'.2.1.symm ha.2.2.1)
    show Separate (L.retrain m t x a).1 ∧ _ ∧ ∀ u < m.tls.length, _ → SameFor L u m (L.retrain m t x a).1
    rcases retrain_cases L m t x a with ⟨e, _⟩ | ⟨e, _⟩ | ⟨b, _, _, e⟩
    · show Separate (L.retrain m t x a).1 ∧ m.tls.length ≤ (L.retrain m t x a).1.tls.length ∧ _
      rw [e]; exact ⟨h, le_refl _, fun u _ _ => ⟨rfl, fun _ _ => rfl⟩⟩
    · show Separate (L.retrain m t x a).1 ∧ m.tls.length ≤ (L.retrain m t x a).1.tls.length ∧ _
      rw [e]
      exact ⟨hs, by rw [f1], fun u hu hn => same u hu (fun e => hn (by rw [e]; rfl))⟩
    · show Separate (L.retrain m t x a).1 ∧ m.tls.length ≤ (L.retrain m t x a).1.tls.length ∧ _
      rw [e]
      refine ⟨separate_renew hs _ _ _, by simp [Lib.renew, f1], fun u hu hn => ?_⟩
      have hut : u ≠ t := fun e => hn (by rw [e]; rfl)
      obtain ⟨s1, s2⟩ := same u hu hut
      have hr := h.range u hu
      have key : SameFor L u (L.assign (m.tl t) a m).1
          (Lib.renew (L.assign (m.tl t) a m).1 t b a ((L.assign (m.tl t) a m).1.stored t)) := by
        have hr' := hs.range u (by rw [f1]; exact hu)
        apply apply_congr
        · rw [tl_renew, if_neg (by intro h; exact hut h.1.symm)]
        · unfold Lib.renew; dsimp only; rw [List.getElem?_append_left hr'.2.2.1]
        · exact dict_append _ hr'.1
        · exact dict_append _ hr'.2.1
      exact ⟨key.1.trans s1, fun y new => (key.2 y new).trans (s2 y new)⟩
  | inc t x a =>
    have ht := ho t rfl
    have hrt := h.range t ht
    obtain ⟨f1, f2, f3, f4, f5⟩ := update_frame (m.tl t).args a m
    have hs : Separate (Lib.update m (m.tl t).args a) := h.of_eq f1 (by rw [f2]) f3
    have same : ∀ u < m.tls.length, u ≠ t → SameFor L u m (Lib.update m (m.tl t).args a) := by
      intro u hu hut
      have ha := h.apart u hu t ht hut
      have ha' := h.apart t ht u hu (Ne.symm hut)
      exact apply_congr L (tl_of_tls f1 u) (by rw [f2]) (f4 _ ha.1) (f4 _ ha'.2.1.symm)
    show Separate (L.incBackend (Lib.update m (m.tl t).args a) t x).1 ∧
      m.tls.length ≤ (L.incBackend (Lib.update m (m.tl t).args a) t x).1.tls.length ∧
      ∀ u < m.tls.length, _ → SameFor L u m (L.incBackend (Lib.update m (m.tl t).args a) t x).1
    rcases incBackend_cases L (Lib.update m (m.tl t).args a) t x with e | ⟨b', e⟩
    · rw [e]; exact ⟨hs, by rw [f1], fun u hu hn => same u hu (fun e => hn (by rw [e]; rfl))⟩
    · rw [e]
      refine ⟨hs.of_eq rfl (by simp) rfl, by rw [f1], fun u hu hn => ?_⟩
      have hut : u ≠ t := fun e => hn (by rw [e]; rfl)
      obtain ⟨s1, s2⟩ := same u hu hut
      have ha := h.apart u hu t ht hut
      have key : SameFor L u (Lib.update m (m.tl t).args a)
          { Lib.update m (m.tl t).args a with
            backends := (Lib.update m (m.tl t).args a).backends.set
              ((Lib.update m (m.tl t).args a).tl t).backend b' } := by
        apply apply_congr
        · rfl
        · dsimp only
          rw [List.getElem?_set_ne]
          rw [tl_of_tls f1, tl_of_tls f1]
          exact ha.2.2.2.symm
        · rfl
        · rfl
      exact ⟨key.1.trans s1, fun y new => (key.2 y new).trans (s2 y new)⟩

/-- Each call is made on a learner that exists by then. -/
def ValidOps (L : Lib K V D B P) : List (Op K V D) → Mem K V B → Prop
  | [], _ => True
  | o :: ops, m => (∀ t, o.on = some t → t < m.tls.length) ∧ ValidOps L ops (o.run L m)

/-- C73. Over any history of calls, failing or not, a learner is changed by the calls on it only.  (The
memory without learners meets the hypothesis, see `separate_empty`.) -/
theorem C73_history (L : Lib K V D B P) : ∀ (ops : List (Op K V D)) (m : Mem K V B), Separate m →
    ValidOps L ops m → Separate (runOps L m ops) ∧
    ∀ u < m.tls.length, (∀ o ∈ ops, o.on ≠ some u) → SameFor L u m (runOps L m ops)
  | [], m, h, _ => ⟨h, fun u _ _ => ⟨rfl, fun _ _ => rfl⟩⟩
  | o :: ops, m, h, ho => by
    obtain ⟨h1, h2, h3⟩ := C73_isolation L h o ho.1
    obtain ⟨i1, i2⟩ := C73_history L ops (o.run L m) h1 ho.2
    refine ⟨i1, fun u hu hn => ?_⟩
    have s1 := h3 u hu (hn o List.mem_cons_self)
    have s2 := i2 u (Nat.lt_of_lt_of_le hu h2) (fun o' ho' => hn o' (List.mem_cons_of_mem _ ho'))
    exact ⟨s2.1.trans s1.1, fun y new => (s2.2 y new).trans (s1.2 y new)⟩

theorem separate_empty : Separate (⟨[], [], []⟩ : Mem K V B) :=
  ⟨fun i hi => by simp at hi, fun i hi => by simp at hi⟩

/-! ## retrain -/

/-- What one successful `retrain` does. -/
theorem retrain_ok (L : Lib K V D B P) {m m' : Mem K V B} {t : Nat} (ht : t < m.tls.length)
    (hrt : (m.tl t).args < m.dicts.length ∧ (m.tl t).trans < m.dicts.length ∧
      (m.tl t).backend < m.backends.length ∧ (m.tl t).args ≠ (m.tl t).trans) {x : D} {a : PyDict K V} (hr : L.retrain m t x a = (m', .ok ())) :
    ∃ b, L.trainBackend x (setAll (m.stored t) a) = .ok b ∧ m'.stored t = setAll (m.stored t) a ∧
      m'.arguments t = a ∧ m'.backends[(m'.tl t).backend]? = some b ∧ m'.tls.length = m.tls.length := by
  obtain ⟨f1, f2, f3, _⟩ := assign_frame L (m.tl t) a m
  rcases retrain_cases L m t x a with ⟨_, e⟩ | ⟨_, e⟩ | ⟨b, ha, hb, e⟩
  · rw [hr] at e; exact absurd rfl e
  · rw [hr] at e; exact absurd rfl e
  · obtain ⟨g1, g2⟩ := assign_ok L (m.tl t) hrt.2.2.2 a m hrt.1 hrt.2.1 ha
    have hst : (L.assign (m.tl t) a m).1.stored t = setAll (m.stored t) a := by
      unfold Mem.stored; rw [tl_of_tls f1]; exact g1
    rw [hst] at hb e
    rw [hr] at e
    have em := congrArg Prod.fst e
    dsimp only at em
    subst em
    have htl : (Lib.renew (L.assign (m.tl t) a m).1 t b a (setAll (m.stored t) a)).tl t =
        ⟨(L.assign (m.tl t) a m).1.backends.length, (L.assign (m.tl t) a m).1.dicts.length,
          (L.assign (m.tl t) a m).1.dicts.length + 1⟩ := by
      rw [tl_renew, if_pos ⟨rfl, by rw [f1]; exact ht⟩]
    refine ⟨b, hb, ?_, ?_, ?_, by simp [Lib.renew, f1]⟩
    · rw [show ∀ m' : Mem K V B, m'.stored t = m'.dict (m'.tl t).trans from fun _ => rfl, htl]
      unfold Lib.renew Mem.dict; dsimp only
      rw [List.getElem?_append_right (by omega)]; simp
    · unfold Mem.arguments; rw [htl]; unfold Lib.renew Mem.dict; dsimp only
      rw [List.getElem?_append_right (by omega)]; simp
    · rw [htl]; unfold Lib.renew; dsimp only
      rw [List.getElem?_append_right (by omega)]; simp

/-- Successive successful calls of `retrain` on a learner. -/
def Retrained (L : Lib K V D B P) (t : Nat) : List (D × PyDict K V) → Mem K V B → Mem K V B → Prop
  | [], m, m' => m' = m
  | (x, a) :: l, m, m' => ∃ m1, L.retrain m t x a = (m1, .ok ()) ∧ Retrained L t l m1 m'

theorem retrained_spec (L : Lib K V D B P) {t : Nat} : ∀ {calls : List (D × PyDict K V)} {m m' : Mem K V B}
    {x : D} {a : PyDict K V}, Separate m → t < m.tls.length →
    (∀ c ∈ calls ++ [(x, a)], (PyDict.keys c.2).Nodup) → Retrained L t (calls ++ [(x, a)]) m m' →
    ∃ d b, (∀ k, PyDict.get? d k = (lastSet ((calls ++ [(x, a)]).map Prod.snd) k).or (PyDict.get? (m.stored t) k)) ∧
      L.trainBackend x d = .ok b ∧ m'.stored t = d ∧ m'.backends[(m'.tl t).backend]? = some b
  | [], m, m', x, a, h, ht, hk, hr => by
    obtain ⟨m1, h1, h2⟩ := hr
    have h2' : m' = m1 := h2
    subst h2'
    obtain ⟨b, h3, h4, _, h5, _⟩ := retrain_ok L ht (h.range t ht) h1
    refine ⟨_, b, fun k => ?_, h3, h4, h5⟩
    rw [get?_setAll (hk (x, a) (by simp))]
    simp [lastSet]
  | (y, c) :: calls, m, m', x, a, h, ht, hk, hr => by
    obtain ⟨m1, h1, h2⟩ := hr
    obtain ⟨b, h3, h4, _, h5, h6⟩ := retrain_ok L ht (h.range t ht) h1
    have hs : Separate m1 := by
      have := (C73_isolation L h (.retrain t y c) (fun t' e => by injection e with e; rw [← e]; exact ht)).1
      have this : Separate (L.retrain m t y c).1 := this
      rw [h1] at this; exact this
    obtain ⟨d, b', g1, g2, g3, g4⟩ := retrained_spec L hs (by omega)
      (fun c' hc' => hk c' (List.mem_cons_of_mem _ hc')) h2
    refine ⟨d, b', fun k => ?_, g2, g3, g4⟩
    rw [g1 k, h4, get?_setAll (hk (y, c) (by simp))]
    simp [lastSet, Option.or_assoc]

/-- C73. After training and any number of successful calls of `retrain`, the learner is one trained on
the data of the last call alone, each argument having the value it was given last, also for `apply`.
Partial: this says nothing about `arguments`, about failing calls and about `incrementalTrain`, for which
see the theorems below. -/
theorem C73_retrain_partial (L : Lib K V D B P) {m m1 m' : Mem K V B} (h : Separate m) {x0 x : D}
    {a0 a : PyDict K V} {t : Nat} {calls : List (D × PyDict K V)} (h0 : L.fresh m x0 a0 = (m1, .ok t))
    (hr : Retrained L t (calls ++ [(x, a)]) m1 m')
    (hk : ∀ c ∈ calls ++ [(x, a)], (PyDict.keys c.2).Nodup) :
    ∃ d b, (∀ k, PyDict.get? d k = lastSet (a0 :: (calls ++ [(x, a)]).map Prod.snd) k) ∧
      L.train x d = .ok b ∧ ∀ y new, L.apply m' t y new = L.outcome b y new d := by
  have hs : Separate m1 := by
    have := (C73_isolation L h (.train x0 a0) (fun t e => by cases e)).1
    have this : Separate (L.fresh m x0 a0).1 := this
    rw [h0] at this; exact this
  unfold Lib.fresh at h0
  cases hb : L.trainBackend x0 a0 with
  | error e => rw [hb] at h0; exact absurd (congrArg Prod.snd h0) (by simp)
  | ok b0 =>
    rw [hb] at h0
    have e1 := congrArg Prod.fst h0
    have e2 := congrArg Prod.snd h0
    dsimp only at e1 e2
    injection e2 with e2
    have ht : t < m1.tls.length := by rw [← e1, ← e2]; simp [Mem.alloc]
    have hst : m1.stored t = a0 := by
      rw [← e1, ← e2]
      unfold Mem.stored
      rw [tl_alloc]
      simp [Mem.alloc, Mem.dict]
    obtain ⟨d, b, g1, g2, g3, g4⟩ := retrained_spec L hs ht hk hr
    refine ⟨d, b, fun k => ?_, ?_, fun y new => ?_⟩
    · rw [g1 k, hst]; rfl
    · unfold Lib.trainBackend at g2
      simp only [bind, Except.bind] at g2
      cases hc : L.check d with
      | error e => rw [hc] at g2; cases g2
      | ok _ => rw [hc] at g2; exact g2
    · unfold Lib.apply
      rw [g4, g3]

/-! A learner that can be written down: it remembers the arguments it is trained with, and `apply` returns
these, the data it was trained on and the arguments it is applied with. -/

/-- The learner: parameters `k` (required) and `p`; `apply` takes `p`. -/
def demo : Lib String Nat Nat (Nat × PyDict String Nat) (Nat × PyDict String Nat × PyDict String Nat) where
  params := ["k", "p"]
  defaults := ["p"]
  applyParams := ["p"]
  isTune := fun v => v = 99
  train := fun x a => if x = 0 then .error .InvalidArgumentValue else .ok (x, a)
  inc := fun x b a => .ok (x + b.1, a)
  out := fun b _ a => .ok (b.1, b.2, a)

/-- The hypotheses of `C73_retrain_partial` are met: `train(k=1, p=2)`, then `retrain(k=3)` twice. -/
example : ∃ m1 m', demo.fresh ⟨[], [], []⟩ 5 [("k", 1), ("p", 2)] = (m1, .ok 0) ∧
    Retrained demo 0 [(6, [("k", 3)]), (7, [("k", 4)])] m1 m' ∧
    demo.apply m' 0 0 [] = .ok (7, [("k", 4), ("p", 2)], [("p", 2)]) :=
  ⟨_, _, rfl, ⟨_, rfl, _, rfl, rfl⟩, by decide⟩

/-- The hypotheses of `C73_history` are met by two learners and a `retrain` of the second. -/
example : ValidOps demo [.train 5 [("k", 1)], .train 6 [("k", 2)], .retrain 1 7 [("k", 3)]] ⟨[], [], []⟩ := by
  refine ⟨fun t h => (by cases h), fun t h => (by cases h), fun t h => ?_, trivial⟩
  injection h with h
  subst h
  decide +kernel

/-- C73. `arguments` of a learner is not what it was trained with: after `train(k=1, p=2)` and
`retrain(k=3)` the value `p=2` is still used, but `arguments` is `{k: 3}`. -/
theorem C73_arguments_violated :
    let m1 := (demo.fresh ⟨[], [], []⟩ 5 [("k", 1), ("p", 2)]).1
    let m2 := (demo.retrain m1 0 6 [("k", 3)]).1
    (demo.retrain m1 0 6 [("k", 3)]).2 = .ok () ∧ m2.arguments 0 = [("k", 3)] ∧
    demo.apply m2 0 0 [] = .ok (6, [("k", 3), ("p", 2)], [("p", 2)]) := by decide +kernel

/-- C73. A required argument must be repeated: after `train(k=1)`, `retrain(p=2)` is refused although
`k` was set before. -/
theorem C73_required_violated :
    let m1 := (demo.fresh ⟨[], [], []⟩ 5 [("k", 1)]).1
    (demo.retrain m1 0 6 [("p", 2)]).2 = .error .InvalidArgumentValue := by decide +kernel

/-- C73. A failing `retrain` changes the learner: after `train(k=1, p=2)` and a call `retrain(k=1, p=3)`
that fails during training, `apply` uses the old model with `p=3`. -/
theorem C73_failed_retrain_violated :
    let m1 := (demo.fresh ⟨[], [], []⟩ 5 [("k", 1), ("p", 2)]).1
    let m2 := (demo.retrain m1 0 0 [("k", 1), ("p", 3)]).1
    (demo.retrain m1 0 0 [("k", 1), ("p", 3)]).2 = .error .InvalidArgumentValue ∧
    demo.apply m1 0 0 [] = .ok (5, [("k", 1), ("p", 2)], [("p", 2)]) ∧
    demo.apply m2 0 0 [] = .ok (5, [("k", 1), ("p", 2)], [("p", 3)]) ∧
    m2.arguments 0 = [("k", 1), ("p", 3)] := by
  refine ⟨?_, ?_, ?_, ?_⟩ <;> decide +kernel

/-- C73. A refused `Tune` object has the same effect for the arguments before it. -/
theorem C73_tune_violated :
    let m1 := (demo.fresh ⟨[], [], []⟩ 5 [("k", 1), ("p", 2)]).1
    let m2 := (demo.retrain m1 0 6 [("p", 3), ("k", 99)]).1
    (demo.retrain m1 0 6 [("p", 3), ("k", 99)]).2 = .error .InvalidArgumentValue ∧
    demo.apply m2 0 0 [] = .ok (5, [("k", 1), ("p", 2)], [("p", 3)]) := by decide +kernel

/-- C73. `incrementalTrain` after `retrain` forgets the arguments of `train` that are still in force:
after `train(k=1, p=2)` and `retrain(k=3)` it trains with `{k: 3}` only, and arguments given to
`incrementalTrain` are not used by `apply`. -/
theorem C73_incremental_violated :
    let m1 := (demo.fresh ⟨[], [], []⟩ 5 [("k", 1), ("p", 2)]).1
    let m2 := (demo.retrain m1 0 6 [("k", 3)]).1
    let m3 := (demo.incrementalTrain m2 0 1 []).1
    let m4 := (demo.incrementalTrain m1 0 1 [("p", 8)]).1
    demo.apply m3 0 0 [] = .ok (7, [("k", 3)], [("p", 2)]) ∧
    demo.apply m4 0 0 [] = .ok (6, [("k", 1), ("p", 8)], [("p", 2)]) := by decide +kernel

/-- C73. `retrain` of a learner made with a multi-class strategy does not train its learners again: on the
data 1 and 2 (two binary problems) with `p=2`, then `retrain` on 7 with `p=3`.  Both learners still answer
with the models of the old data, and the first one alone is applied with the new `p`. -/
theorem C73_multi_class_violated :
    let r := demo.multi ⟨[], [], []⟩ [1, 2] [("k", 1), ("p", 2)]
    let m2 := (demo.retrain r.1 2 7 [("k", 1), ("p", 3)]).1
    r.2 = .ok (2, [0, 1]) ∧ (demo.retrain r.1 2 7 [("k", 1), ("p", 3)]).2 = .ok () ∧
    demo.applyAll m2 [0, 1] 0 =
      [.ok (1, [("k", 1), ("p", 2)], [("p", 3)]), .ok (2, [("k", 1), ("p", 2)], [("p", 2)])] ∧
    m2.arguments 2 = [("k", 1), ("p", 3)] ∧ m2.arguments 1 = [("k", 1), ("p", 3)] := by
  refine ⟨?_, ?_, ?_, ?_, ?_⟩ <;> decide +kernel

/-! ## Refused arguments -/

/-- C73. `train` and `retrain` refuse a call that gives a value for something that is no parameter of the
learner, or none for a parameter without default, and then nothing is changed. -/
theorem C73_refused (L : Lib K V D B P) (m : Mem K V B) (t : Nat) (x : D) (a : PyDict K V)
    (h : (∃ k ∈ PyDict.keys a, k ∉ L.params) ∨ (∃ k ∈ L.params, k ∉ PyDict.keys a ∧ k ∉ L.defaults)) :
    L.fresh m x a = (m, .error .InvalidArgumentValue) ∧
    L.retrain m t x a = (m, .error .InvalidArgumentValue) := by
  have hc : L.check a = .error .InvalidArgumentValue := by
    unfold Lib.check
    rw [if_pos]
    rw [Bool.or_eq_true]
    rcases h with ⟨k, h1, h2⟩ | ⟨k, h1, h2, h3⟩
    · right
      unfold Lib.extra
      rw [List.any_eq_true]
      exact ⟨k, h1, by simp [h2]⟩
    · left
      unfold Lib.lacks
      rw [List.any_eq_true]
      refine ⟨k, h1, ?_⟩
      have : PyDict.has a k = false := by
        cases hh : PyDict.has a k with
        | false => rfl
        | true => exact absurd (PyDict.mem_keys.2 hh) h2
      simp [this, h3]
  constructor
  · unfold Lib.fresh Lib.trainBackend
    simp only [bind, Except.bind, hc]
  · unfold Lib.retrain
    rw [hc]

/-- C73. What is not refused is trained. -/
theorem C73_accepted (L : Lib K V D B P) (x : D) (a : PyDict K V) (h1 : ∀ k ∈ PyDict.keys a, k ∈ L.params)
    (h2 : ∀ k ∈ L.params, k ∈ PyDict.keys a ∨ k ∈ L.defaults) : L.trainBackend x a = L.train x a := by
  have hc : L.check a = .ok () := by
    unfold Lib.check
    rw [if_neg]
    rw [Bool.or_eq_true, not_or]
    constructor
    · unfold Lib.lacks
      rw [List.any_eq_true]
      rintro ⟨k, hk, hk'⟩
      rcases h2 k hk with e | e
      · have : PyDict.has a k = true := PyDict.mem_keys.1 e
        simp [this] at hk'
      · simp [e] at hk'
    · unfold Lib.extra
      rw [List.any_eq_true]
      rintro ⟨k, hk, hk'⟩
      simp [h1 k hk] at hk'
  unfold Lib.trainBackend
  simp only [bind, Except.bind, hc]

example : (∃ k ∈ PyDict.keys [("k", 1), ("z", 2)], k ∉ demo.params) := ⟨"z", by decide +kernel, by decide +kernel⟩

/-! ## apply -/

/-- C73. `apply` gives the learner the argument values of this call and, for the others, the stored ones;
it refuses arguments the method does not take. -/
theorem C73_apply_arguments (L : Lib K V D B P) (new stored : PyDict K V) :
    (∀ a, L.methodArgs new stored = .ok a →
      (∀ k ∈ PyDict.keys new, k ∈ L.applyParams) ∧
      ∀ k, PyDict.get? a k = if k ∈ L.applyParams then lastSet [stored, new] k else none) ∧
    (L.methodArgs new stored = .error .InvalidArgumentValue ↔ ∃ k ∈ PyDict.keys new, k ∉ L.applyParams) := by
  unfold Lib.methodArgs
  constructor
  · intro a h
    split at h
    · cases h
    · rename_i hc
      injection h with h
      subst h
      refine ⟨fun k hk => ?_, fun k => ?_⟩
      · by_contra hcon
        exact hc (List.any_eq_true.2 ⟨k, hk, by simp [hcon]⟩)
      · clear hc
        induction L.applyParams with
        | nil => rfl
        | cons q ps ih =>
          rw [List.filterMap_cons]
          cases hq : (PyDict.get? new q).or (PyDict.get? stored q) with
          | none =>
            simp only [hq, Option.map_none]
            rw [ih]
            by_cases hkq : k = q
            · subst hkq
              simp [lastSet, hq]
            · simp [hkq]
          | some v =>
            simp only [hq, Option.map_some]
            by_cases hkq : k = q
            · subst hkq
              simp [PyDict.get?, lastSet, hq]
            · rw [PyDict.get?, if_neg (fun e => hkq e.symm), ih]
              simp [hkq]
  · constructor
    · intro h
      split at h
      · rename_i hc
        obtain ⟨k, hk, h2⟩ := List.any_eq_true.1 hc
        exact ⟨k, hk, by simpa using h2⟩
      · cases h
    · rintro ⟨k, hk, h2⟩
      rw [if_pos (List.any_eq_true.2 ⟨k, hk, by simp [h2]⟩)]

example : demo.methodArgs [("p", 7)] [("k", 1), ("p", 2)] = .ok [("p", 7)] ∧
    demo.methodArgs [("k", 7)] [("k", 1), ("p", 2)] = .error .InvalidArgumentValue := by decide

end Nimble.Learner
