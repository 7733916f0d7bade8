import Verif.Model.LearnerLookup
import Verif.Lemmas.Py

/-!
# C109: the package and the learner a name stands for

The specification speaks of the names an interface answers to and of the interfaces which can be used.
-/

namespace Nimble
namespace Lookup

/-! ## Specification -/

/-- The same letters, whatever their case. -/
def SameLetters (a b : String) : Prop := a.toList.map Char.toLower = b.toList.map Char.toLower

instance (a b : String) : Decidable (SameLetters a b) := by unfold SameLetters; infer_instance

/-- The names of an interface: its canonical name and its aliases, in letters of any case. -/
def Answers (i : Iface) (name : String) : Prop :=
  SameLetters name i.canonical ∨ ∃ a ∈ i.aliases, SameLetters name a

/-- An interface the user can use: one of nimble's own, or one whose package is installed. -/
def Usable (w : World) (i : Iface) : Prop := i ∈ w.builtin ∨ (i ∈ w.predefined ∧ w.init i = true)

/-- The interfaces nimble knows. -/
def Known (w : World) (i : Iface) : Prop := i ∈ w.builtin ∨ i ∈ w.predefined

/-- No name stands for two interfaces, the aliases are written in lower case, and there are no dots in
the canonical names. -/
structure World.Ok (w : World) : Prop where
  unique : ∀ i j name, Known w i → Known w j → Answers i name → Answers j name → i = j
  small : ∀ i, Known w i → ∀ a ∈ i.aliases, a.toList.map Char.toLower = a.toList
  dots : ∀ i, Known w i → '.' ∉ i.canonical.toList

/-! ## Lemmas -/

theorem lower_eq {a b : String} : lower a = lower b ↔ SameLetters a b := by
  simp [lower, SameLetters, String.ofList_inj]

theorem isAlias_iff {w : World} (hw : w.Ok) {i : Iface} (hi : Known w i) (name : String) :
    isAlias i name = true ↔ Answers i name := by
  have key : lower name ∈ i.aliases ↔ ∃ a ∈ i.aliases, SameLetters name a := by
    constructor
    · intro h
      refine ⟨_, h, ?_⟩
      have := hw.small i hi _ h
      rw [SameLetters, this]; simp [lower]
    · rintro ⟨a, ha, h⟩
      have hs := hw.small i hi a ha
      have : lower name = a := by
        rw [lower, h, hs]; simp
      rw [this]; exact ha
  unfold isAlias Answers
  split
  · next h => simp only [true_iff]; exact Or.inr (key.1 h)
  · next h =>
    rw [decide_eq_true_iff, lower_eq]
    constructor
    · exact Or.inl
    · rintro (h' | h')
      · exact h'
      · exact absurd (key.2 h') h

theorem answers_canonical (i : Iface) : Answers i i.canonical := Or.inl rfl

/-- What holds of `available` at all times. -/
structure Inv (w : World) (st : Available) : Prop where
  good : ∀ p ∈ st, p.1 = p.2.canonical ∧ Usable w p.2
  all : ∀ i ∈ w.builtin, PyDict.get? st i.canonical = some i
  nodup : (PyDict.keys st).Nodup

theorem Usable.known {w : World} {i : Iface} (h : Usable w i) : Known w i :=
  h.elim Or.inl (fun h => Or.inr h.1)

theorem Inv.of_get {w : World} {st : Available} (h : Inv w st) {k : String} {i : Iface}
    (hg : PyDict.get? st k = some i) : k = i.canonical ∧ Usable w i :=
  h.good _ (PyDict.mem_of_get? hg)

theorem Inv.set {w : World} (hw : w.Ok) {st : Available} (h : Inv w st) {i : Iface} (hi : i ∈ w.predefined)
    (hin : w.init i = true) : Inv w (PyDict.set st i.canonical i) := by
  have hn := PyDict.nodup_set h.nodup i.canonical i
  refine ⟨?_, ?_, hn⟩
  · rintro ⟨k, j⟩ hp
    have hg := PyDict.get?_of_mem hn hp
    rw [PyDict.get?_set] at hg
    split at hg
    · next hk => cases hg; subst hk; exact ⟨rfl, Or.inr ⟨hi, hin⟩⟩
    · exact h.of_get hg
  · intro j hj
    rw [PyDict.get?_set]
    split
    · next hk =>
      congr 1
      refine hw.unique i j i.canonical (Or.inr hi) (Or.inl hj) (answers_canonical i) ?_
      have e : i.canonical = j.canonical := by first | exact hk | exact hk.symm
      rw [e]; exact answers_canonical j
    · exact h.all j hj

theorem Inv.get_set {w : World} (hw : w.Ok) {st : Available} (h : Inv w st) {i : Iface} (hi : Known w i)
    {k : String} {j : Iface} (hg : PyDict.get? st k = some j) :
    PyDict.get? (PyDict.set st i.canonical i) k = some j := by
  rw [PyDict.get?_set]
  split
  · next hk =>
    obtain ⟨h1, h2⟩ := h.of_get hg
    congr 1
    refine hw.unique i j i.canonical hi h2.known (answers_canonical i) ?_
    have e : i.canonical = j.canonical := by first | exact hk.trans h1 | exact hk.symm.trans h1
    rw [e]; exact answers_canonical j
  · exact hg

theorem inv_start {w : World} (hw : w.Ok) : Inv w (start w) := by
  have gen : ∀ (l : List Iface) (st : Available), (∀ i ∈ l, i ∈ w.builtin) →
      (∀ p ∈ st, p.1 = p.2.canonical ∧ Usable w p.2) → (PyDict.keys st).Nodup →
      let st' := (l.map (fun i => (i.canonical, i))).foldl (fun d p => PyDict.set d p.1 p.2) st
      (∀ p ∈ st', p.1 = p.2.canonical ∧ Usable w p.2) ∧ (PyDict.keys st').Nodup ∧
        ∀ i, (PyDict.get? st i.canonical = some i ∨ i ∈ l) → PyDict.get? st' i.canonical = some i := by
    intro l
    induction l with
    | nil => intro st _ h1 h2; exact ⟨h1, h2, fun i h => h.elim id (fun h => by cases h)⟩
    | cons a l ih =>
      intro st hl h1 h2
      have ha := hl a (by simp)
      have hn := PyDict.nodup_set h2 a.canonical a
      have hgood : ∀ p ∈ PyDict.set st a.canonical a, p.1 = p.2.canonical ∧ Usable w p.2 := by
        rintro ⟨k, j⟩ hp
        have hg := PyDict.get?_of_mem hn hp
        rw [PyDict.get?_set] at hg
        split at hg
        · next hk => cases hg; subst hk; exact ⟨rfl, Or.inl ha⟩
        · exact h1 _ (PyDict.mem_of_get? hg)
      obtain ⟨r1, r2, r3⟩ := ih (PyDict.set st a.canonical a) (fun i hi => hl i (by simp [hi])) hgood hn
      refine ⟨r1, r2, ?_⟩
      intro i hi
      apply r3
      rw [PyDict.get?_set]
      rcases hi with hi | hi
      · left
        split
        · next hk =>
          congr 1
          have hu := (h1 _ (PyDict.mem_of_get? hi)).2
          refine hw.unique a i a.canonical (Or.inl ha) hu.known (answers_canonical a) ?_
          have e : a.canonical = i.canonical := by first | exact hk | exact hk.symm
          rw [e]; exact answers_canonical i
        · exact hi
      · rcases List.mem_cons.1 hi with rfl | hi
        · left; simp
        · exact Or.inr hi
  obtain ⟨h1, h2, h3⟩ := gen w.builtin [] (fun _ h => h) (by simp) (by simp)
  exact ⟨h1, fun i hi => h3 i (Or.inr hi), h2⟩

/-- Where `findBest` may lead. -/
theorem findBest_state (w : World) (st : Available) (p : String) :
    (findBest w st p).1 = st ∨
      ∃ i ∈ w.predefined, w.init i = true ∧ (findBest w st p).1 = PyDict.set st i.canonical i := by
  unfold findBest
  split
  · exact Or.inl rfl
  · unfold findAvailable
    split
    · exact Or.inl rfl
    · unfold findPredefined
      split
      · next i hi =>
        unfold instantiate
        split
        · next h => exact Or.inr ⟨i, List.mem_of_find?_eq_some hi, h, rfl⟩
        · exact Or.inl rfl
      · exact Or.inl rfl

/-- What it means that a state follows another. -/
def Grows (w : World) (a b : Available) : Prop :=
  Inv w b ∧ (∀ k i, PyDict.get? a k = some i → PyDict.get? b k = some i)

theorem Grows.trans {w : World} {a b c : Available} (h : Grows w a b) (h' : Grows w b c) : Grows w a c :=
  ⟨h'.1, fun k i hk => h'.2 k i (h.2 k i hk)⟩

theorem grows_findBest {w : World} (hw : w.Ok) {st : Available} (h : Inv w st) (p : String) :
    Grows w st (findBest w st p).1 := by
  rcases findBest_state w st p with e | ⟨i, hi, hin, e⟩
  · rw [e]; exact ⟨h, fun _ _ h => h⟩
  · rw [e]; exact ⟨h.set hw hi hin, fun k j hk => h.get_set hw (Or.inr hi) hk⟩

theorem grows_initOne {w : World} (hw : w.Ok) {st : Available} (h : Inv w st) {i : Iface} (hi : i ∈ w.predefined) :
    Grows w st (initOne w st i) ∧ (w.init i = true → PyDict.get? (initOne w st i) i.canonical = some i) := by
  unfold initOne
  split
  · next hh =>
    refine ⟨⟨h, fun _ _ h => h⟩, fun _ => ?_⟩
    obtain ⟨j, hj⟩ := Option.isSome_iff_exists.1 (PyDict.mem_keys.1 (PyDict.has_iff.1 hh))
    obtain ⟨h1, h2⟩ := h.of_get hj
    have : i = j := by
      refine hw.unique i j i.canonical (Or.inr hi) h2.known (answers_canonical i) ?_
      rw [h1]; exact answers_canonical j
    rw [hj, this]
  · split
    · next hin =>
      exact ⟨⟨h.set hw hi hin, fun k j hk => h.get_set hw (Or.inr hi) hk⟩, fun _ => by simp⟩
    · next hin => exact ⟨⟨h, fun _ _ h => h⟩, fun h => absurd h hin⟩

theorem grows_initAll {w : World} (hw : w.Ok) {st : Available} (h : Inv w st) :
    Grows w st (initAll w st) ∧
      ∀ i ∈ w.predefined, w.init i = true → PyDict.get? (initAll w st) i.canonical = some i := by
  have gen : ∀ (l : List Iface) (st : Available), (∀ i ∈ l, i ∈ w.predefined) → Inv w st →
      Grows w st (l.foldl (initOne w) st) ∧
        ∀ i ∈ l, w.init i = true → PyDict.get? (l.foldl (initOne w) st) i.canonical = some i := by
    intro l
    induction l with
    | nil => intro st _ h; exact ⟨⟨h, fun _ _ h => h⟩, by simp⟩
    | cons a l ih =>
      intro st hl h
      obtain ⟨g1, g2⟩ := grows_initOne hw h (hl a (by simp))
      obtain ⟨r1, r2⟩ := ih _ (fun i hi => hl i (by simp [hi])) g1.1
      refine ⟨g1.trans r1, ?_⟩
      intro i hi hin
      rcases List.mem_cons.1 hi with rfl | hi
      · exact r1.2 _ _ (g2 hin)
      · exact r2 i hi hin
  exact gen w.predefined st (fun _ h => h) h

theorem grows_after {w : World} (hw : w.Ok) {st : Available} (h : Inv w st) (c : Call) :
    Grows w st (after w st c) := by
  cases c with
  | byName s =>
    show Grows w st (unpack w st s).1
    unfold unpack
    split
    · exact ⟨h, fun _ _ h => h⟩
    · exact grows_findBest hw h _
  | byClass c => exact grows_findBest hw h _
  | names => exact (grows_initAll hw h).1
  | namesOf p => exact grows_findBest hw h _

theorem inv_run {w : World} (hw : w.Ok) (calls : List Call) : Inv w (run w calls) := by
  have gen : ∀ (calls : List Call) (st : Available), Inv w st → Inv w (calls.foldl (after w) st) := by
    intro calls
    induction calls with
    | nil => intro st h; exact h
    | cons c cs ih => intro st h; exact ih _ (grows_after hw h c).1
  exact gen calls _ (inv_start hw)

/-- `findBest` at a name of a known interface. -/
theorem findBest_known {w : World} (hw : w.Ok) {st : Available} (h : Inv w st) {i : Iface} (hi : Known w i)
    {p : String} (hp : Answers i p) :
    (Usable w i → (findBest w st p).2 = .ok i) ∧
      (¬ Usable w i → findBest w st p = (st, .error .PackageException)) := by
  have hst : ∀ j, Known w j → Answers j p → j = i := fun j hj ha => hw.unique j i p hj hi ha hp
  unfold findBest
  split
  · next j hj =>
    obtain ⟨h1, h2⟩ := h.of_get hj
    have e : j = i := hst j h2.known (by rw [h1]; exact answers_canonical j)
    subst e
    exact ⟨fun _ => rfl, fun hu => absurd h2 hu⟩
  · unfold findAvailable
    split
    · next j hj =>
      obtain ⟨q, hq, rfl⟩ := List.mem_map.1 (List.mem_of_find?_eq_some hj)
      have h2 := (h.good q hq).2
      have ha := (isAlias_iff hw h2.known p).1 (List.find?_some (p := fun i => isAlias i p) hj)
      have e := hst _ h2.known ha
      rw [e] at h2
      refine ⟨fun _ => ?_, fun hu => absurd h2 hu⟩
      rw [e]
    · next hnone =>
      have hnb : i ∉ w.builtin := by
        intro hb
        have hm := PyDict.mem_of_get? (h.all i hb)
        have := List.find?_eq_none.1 hnone i (List.mem_map.2 ⟨_, hm, rfl⟩)
        exact this ((isAlias_iff hw hi p).2 hp)
      have hpre : i ∈ w.predefined := hi.resolve_left hnb
      unfold findPredefined
      split
      · next j hj =>
        have hjp := List.mem_of_find?_eq_some hj
        have e : j = i := hst j (Or.inr hjp) ((isAlias_iff hw (Or.inr hjp) p).1 (List.find?_some (p := fun i => isAlias i p) hj))
        subst e
        unfold instantiate
        split
        · next hin => exact ⟨fun _ => rfl, fun hu => absurd (Or.inr ⟨hpre, hin⟩) hu⟩
        · next hin =>
          exact ⟨fun hu => absurd (hu.resolve_left hnb).2 hin, fun _ => rfl⟩
      · next hn =>
        exact absurd ((isAlias_iff hw hi p).2 hp) (List.find?_eq_none.1 hn i hpre)

theorem findBest_unknown {w : World} (hw : w.Ok) {st : Available} (h : Inv w st) {p : String}
    (hp : ∀ i, Known w i → ¬ Answers i p) : findBest w st p = (st, .error .InvalidArgumentValue) := by
  unfold findBest
  split
  · next j hj =>
    obtain ⟨h1, h2⟩ := h.of_get hj
    exact absurd (by rw [h1]; exact answers_canonical j) (hp j h2.known)
  · unfold findAvailable
    split
    · next j hj =>
      obtain ⟨q, hq, rfl⟩ := List.mem_map.1 (List.mem_of_find?_eq_some hj)
      have h2 := (h.good q hq).2
      exact absurd ((isAlias_iff hw h2.known p).1 (List.find?_some (p := fun i => isAlias i p) hj)) (hp _ h2.known)
    · unfold findPredefined
      split
      · next j hj =>
        have hjp := List.mem_of_find?_eq_some hj
        exact absurd ((isAlias_iff hw (Or.inr hjp) p).1 (List.find?_some (p := fun i => isAlias i p) hj)) (hp _ (Or.inr hjp))
      · rfl

theorem split_dotted {p l : String} (hp : '.' ∉ p.toList) :
    '.' ∈ (p ++ "." ++ l).toList ∧ splitName (p ++ "." ++ l) = (p, l) := by
  have e : (p ++ "." ++ l).toList = p.toList ++ '.' :: l.toList := by
    simp [String.toList_append]
  have t : ∀ (a b : List Char), '.' ∉ a → (a ++ '.' :: b).takeWhile (fun c => decide (c ≠ '.')) = a ∧
      (a ++ '.' :: b).dropWhile (fun c => decide (c ≠ '.')) = '.' :: b := by
    intro a
    induction a with
    | nil => intro b _; simp
    | cons x a ih =>
      intro b hx
      simp only [List.mem_cons, not_or] at hx
      obtain ⟨i1, i2⟩ := ih b hx.2
      have hx1 : decide (x ≠ '.') = true := by simpa using fun h => hx.1 h.symm
      constructor
      · rw [List.cons_append, List.takeWhile_cons, hx1, if_pos rfl, i1]
      · rw [List.cons_append, List.dropWhile_cons, hx1, if_pos rfl, i2]
  obtain ⟨t1, t2⟩ := t p.toList l.toList hp
  constructor
  · rw [e]; simp
  · unfold splitName
    rw [e, t1, t2]; simp

/-! ## Theorems -/

/-- C109: whatever was asked before, the name of a learner with a package in front of it stands for the
interface which answers to that package and for what is behind the first dot, further dots included, if
that package is installed; otherwise the answer is a `PackageException`, and nothing has changed. -/
theorem C109_resolve (w : World) (hw : w.Ok) (calls : List Call) (i : Iface) (hi : Known w i)
    (p l : String) (hdot : '.' ∉ p.toList) (hp : Answers i p) :
    (Usable w i → (unpack w (run w calls) (p ++ "." ++ l)).2 = .ok (i, l)) ∧
      (¬ Usable w i → unpack w (run w calls) (p ++ "." ++ l) = (run w calls, .error .PackageException)) := by
  obtain ⟨h1, h2⟩ := split_dotted (l := l) hdot
  obtain ⟨f1, f2⟩ := findBest_known hw (inv_run hw calls) hi hp
  unfold unpack
  rw [if_neg (by simpa using h1), h2]
  constructor
  · intro hu
    simp only [withName, f1 hu]; rfl
  · intro hu
    rw [show (p, l).1 = p from rfl, f2 hu]; rfl

/-- C109: a name without a dot, or whose package is no name of any interface, is refused with an
`InvalidArgumentValue`, and nothing has changed. -/
theorem C109_unknown (w : World) (hw : w.Ok) (calls : List Call) :
    (∀ s : String, '.' ∉ s.toList →
      unpack w (run w calls) s = (run w calls, .error .InvalidArgumentValue)) ∧
    (∀ p l : String, '.' ∉ p.toList → (∀ i, Known w i → ¬ Answers i p) →
      unpack w (run w calls) (p ++ "." ++ l) = (run w calls, .error .InvalidArgumentValue)) := by
  constructor
  · intro s hs
    unfold unpack
    rw [if_pos hs]
  · intro p l hdot hp
    obtain ⟨h1, h2⟩ := split_dotted (l := l) hdot
    unfold unpack
    rw [if_neg (by simpa using h1), h2, show (p, l).1 = p from rfl, findBest_unknown hw (inv_run hw calls) hp]
    rfl

/-- C109: an interface once available stays so, under its name, whatever is asked afterwards, and what is
available is usable, known by its canonical name, and there once. -/
theorem C109_available (w : World) (hw : w.Ok) (calls more : List Call) :
    (∀ k i, PyDict.get? (run w calls) k = some i → PyDict.get? (run w (calls ++ more)) k = some i) ∧
      (∀ k i, (k, i) ∈ run w calls → k = i.canonical ∧ Usable w i) ∧
      ((run w calls).map Prod.fst).Nodup ∧
      (∀ i ∈ w.builtin, (i.canonical, i) ∈ run w calls) := by
  have hI := inv_run hw calls
  refine ⟨?_, fun k i h => hI.good _ h, hI.nodup, fun i h => PyDict.mem_of_get? (hI.all i h)⟩
  have gen : ∀ (calls : List Call) (st : Available), Inv w st → Grows w st (calls.foldl (after w) st) := by
    intro calls
    induction calls with
    | nil => intro st h; exact ⟨h, fun _ _ h => h⟩
    | cons c cs ih => intro st h; exact (grows_after hw h c).trans (ih _ (grows_after hw h c).1)
  intro k i h
  have e : run w (calls ++ more) = more.foldl (after w) (run w calls) := List.foldl_append ..
  rw [e]
  exact (gen more _ hI).2 k i h

/-- C109: `learnerNames()` has the learners of each usable interface, with the canonical name of the
interface in front, and no others. -/
theorem C109_names (w : World) (hw : w.Ok) (calls : List Call) (n : String) :
    n ∈ (learnerNames w (run w calls)).2 ↔
      ∃ i, Usable w i ∧ ∃ l ∈ w.learners i, n = i.canonical ++ "." ++ l := by
  have hI := inv_run hw calls
  obtain ⟨g, ga⟩ := grows_initAll hw hI
  unfold learnerNames
  simp only [List.mem_flatMap, List.mem_map]
  constructor
  · rintro ⟨⟨k, i⟩, hk, l, hl, rfl⟩
    obtain ⟨h1, h2⟩ := g.1.good _ hk
    exact ⟨i, h2, l, hl, by rw [← h1]⟩
  · rintro ⟨i, hu, l, hl, rfl⟩
    have : PyDict.get? (initAll w (run w calls)) i.canonical = some i := by
      rcases hu with hb | ⟨hp, hin⟩
      · exact g.1.all i hb
      · exact ga i hp hin
    exact ⟨_, PyDict.mem_of_get? this, l, hl, rfl⟩

/-- C109: no name is there twice, if the interfaces do not name a learner twice. -/
theorem C109_names_once (w : World) (hw : w.Ok) (hl : ∀ i, Usable w i → (w.learners i).Nodup)
    (calls : List Call) : (learnerNames w (run w calls)).2.Nodup := by
  obtain ⟨g, -⟩ := grows_initAll hw (inv_run hw calls)
  have hn := g.1.nodup
  have hgood := g.1.good
  unfold learnerNames
  dsimp only
  generalize initAll w (run w calls) = st at hn hgood
  have inj : ∀ (p q a b : String), '.' ∉ p.toList → '.' ∉ q.toList → p ++ "." ++ a = q ++ "." ++ b →
      p = q ∧ a = b := by
    intro p q a b hp hq h
    have h1 := (split_dotted (l := a) hp).2
    rw [h, (split_dotted (l := b) hq).2] at h1
    exact ⟨(congrArg Prod.fst h1).symm, (congrArg Prod.snd h1).symm⟩
  have hd : ∀ p ∈ st, '.' ∉ p.1.toList := by
    intro p hp
    obtain ⟨h1, h2⟩ := hgood p hp
    rw [h1]; exact hw.dots _ h2.known
  rw [List.nodup_flatMap]
  constructor
  · intro p hp
    refine (hl p.2 (hgood p hp).2).map_on ?_
    intro a _ b _ h
    exact (inj _ _ _ _ (hd p hp) (hd p hp) h).2
  · have hn' : st.Pairwise (fun a b => a.1 ≠ b.1) := List.pairwise_map.1 hn
    refine hn'.imp_of_mem ?_
    intro a b ha hb hab n hna hnb
    obtain ⟨x, _, rfl⟩ := List.mem_map.1 hna
    obtain ⟨y, _, h⟩ := List.mem_map.1 hnb
    exact hab (inj _ _ _ _ (hd b hb) (hd a ha) h).1.symm

/-- C109: each of these names stands, at any later time, for the learner and the interface it was made of. -/
theorem C109_names_resolve (w : World) (hw : w.Ok) (calls more : List Call) (n : String)
    (hn : n ∈ (learnerNames w (run w calls)).2) :
    ∃ i l, Usable w i ∧ l ∈ w.learners i ∧ n = i.canonical ++ "." ++ l ∧
      (unpack w (run w (calls ++ more)) n).2 = .ok (i, l) := by
  obtain ⟨i, hu, l, hl, rfl⟩ := (C109_names w hw calls n).1 hn
  exact ⟨i, l, hu, hl, rfl, (C109_resolve w hw (calls ++ more) i hu.known _ l (hw.dots i hu.known)
    (answers_canonical i)).1 hu⟩

/-- C109: `learnerNames(package)` has the learners of the interface which answers to `package`, in their
order and without the package, for every name of the interface, or refuses. -/
theorem C109_names_of (w : World) (hw : w.Ok) (calls : List Call) (p : String) :
    (∀ i, Usable w i → Answers i p → (learnerNamesOf w (run w calls) p).2 = .ok (w.learners i)) ∧
      (∀ i, Known w i → ¬ Usable w i → Answers i p →
        (learnerNamesOf w (run w calls) p).2 = .error .PackageException) ∧
      ((∀ i, Known w i → ¬ Answers i p) →
        (learnerNamesOf w (run w calls) p).2 = .error .InvalidArgumentValue) := by
  have hI := inv_run hw calls
  refine ⟨?_, ?_, ?_⟩
  · intro i hu ha
    simp only [learnerNamesOf, (findBest_known hw hI hu.known ha).1 hu]; rfl
  · intro i hk hu ha
    simp only [learnerNamesOf, (findBest_known hw hI hk ha).2 hu]; rfl
  · intro h
    simp only [learnerNamesOf, findBest_unknown hw hI h]; rfl

/-- C109: a class stands for the learner with its name: one of the user's own, defined outside nimble, in
the interface `custom`, one of the classes of `tensorflow` with `keras` among its modules in `keras`, any
other in the interface which answers to the first module it is in. -/
theorem C109_class (w : World) (hw : w.Ok) (calls : List Call) (c : PyClass) (i : Iface) (hu : Usable w i) :
    (c.custom = true → c.first ≠ "nimble" → Answers i "custom" →
      (unpackClass w (run w calls) c).2 = .ok (i, c.name)) ∧
    (c.custom = false → c.first = "tensorflow" → "keras" ∈ c.further → Answers i "keras" →
      (unpackClass w (run w calls) c).2 = .ok (i, c.name)) ∧
    ((c.custom = true → c.first = "nimble") → ¬ (c.first = "tensorflow" ∧ "keras" ∈ c.further) →
      Answers i c.first → (unpackClass w (run w calls) c).2 = .ok (i, c.name)) := by
  have hI := inv_run hw calls
  have fin : ∀ p, Answers i p → classPackage c = p → (unpackClass w (run w calls) c).2 = .ok (i, c.name) := by
    intro p hp e
    simp only [unpackClass, withName, e, (findBest_known hw hI hu.known hp).1 hu]; rfl
  refine ⟨?_, ?_, ?_⟩
  · intro hc hn ha
    apply fin _ ha
    unfold classPackage
    dsimp only
    rw [if_pos]
    refine ⟨hc, ?_⟩
    split
    · decide
    · exact hn
  · intro hc ht hk ha
    apply fin _ ha
    unfold classPackage
    dsimp only
    rw [if_neg (by simp [hc]), if_pos ⟨ht, by simp [hk]⟩]
  · intro hc ht ha
    apply fin _ ha
    have h0 : ¬ (c.first = "tensorflow" ∧ "keras" ∈ c.first :: c.further) := by
      rintro ⟨h1, h2⟩
      refine ht ⟨h1, ?_⟩
      rcases List.mem_cons.1 h2 with h2 | h2
      · rw [h1] at h2; exact absurd h2 (by decide)
      · exact h2
    unfold classPackage
    dsimp only
    rw [if_neg h0, if_neg]
    rintro ⟨h1, h2⟩
    exact h2 (hc h1)

/-- C109: an alias with a dot in it, as `tf.keras`, stands for its interface in `learnerNames(package)`,
but not in front of the name of a learner: that name is refused, as if the package were not known, if what
is in front of the first dot is no name of an interface. -/
theorem C109_dotted_alias_violated (w : World) (hw : w.Ok) (calls : List Call) (i : Iface) (hu : Usable w i)
    (p q l : String) (hdot : '.' ∉ p.toList) (ha : Answers i (p ++ "." ++ q))
    (hp : ∀ j, Known w j → ¬ Answers j p) :
    (learnerNamesOf w (run w calls) (p ++ "." ++ q)).2 = .ok (w.learners i) ∧
      (unpack w (run w calls) (p ++ "." ++ q ++ "." ++ l)).2 = .error .InvalidArgumentValue := by
  refine ⟨(C109_names_of w hw calls _).1 i hu ha, ?_⟩
  have e : p ++ "." ++ q ++ "." ++ l = p ++ "." ++ (q ++ "." ++ l) := by
    simp only [String.append_assoc]
  rw [e, (C109_unknown w hw calls).2 p _ hdot hp]

/-! ## Examples -/

/-- The interfaces of nimble, with keras not installed unless `k`. -/
def std (k : Bool) : World where
  builtin := [⟨"nimble", []⟩, ⟨"custom", []⟩]
  predefined := [⟨"autoimpute", []⟩, ⟨"keras", ["tensorflow.keras", "tf.keras"]⟩,
    ⟨"sklearn", ["skl", "scikitlearn", "scikit-learn"]⟩]
  init := fun i => decide (i.canonical = "sklearn") || (k && decide (i.canonical = "keras"))
  learners := fun i => if i.canonical = "nimble" then ["KNNClassifier", "RidgeRegression"] else
    if i.canonical = "sklearn" then ["SVC", "LinearRegression"] else []

theorem std_known {k : Bool} {i : Iface} : Known (std k) i ↔
    i ∈ [⟨"nimble", []⟩, ⟨"custom", []⟩, ⟨"autoimpute", []⟩, ⟨"keras", ["tensorflow.keras", "tf.keras"]⟩,
      ⟨"sklearn", ["skl", "scikitlearn", "scikit-learn"]⟩] := by
  simp [Known, std, or_assoc]

/-- All the names of an interface. -/
def allNames (i : Iface) : List String := i.canonical :: i.aliases

/-- The standard interfaces meet the conditions. -/
theorem std_ok (k : Bool) : (std k).Ok := by
  have answers : ∀ i name, Answers i name → ∃ a ∈ allNames i, SameLetters name a := by
    rintro i name (h | ⟨a, ha, h⟩)
    · exact ⟨_, by simp [allNames], h⟩
    · exact ⟨a, by simp [allNames, ha], h⟩
  refine ⟨?_, ?_, ?_⟩
  · intro i j name hi hj h1 h2
    obtain ⟨a, ha, h1⟩ := answers i name h1
    obtain ⟨b, hb, h2⟩ := answers j name h2
    have hab : SameLetters a b := h1.symm.trans h2
    rw [std_known] at hi hj
    revert i
    revert j
    intro j hj _ hb i hi _ ha
    have key : ∀ i ∈ [(⟨"nimble", []⟩ : Iface), ⟨"custom", []⟩, ⟨"autoimpute", []⟩,
        ⟨"keras", ["tensorflow.keras", "tf.keras"]⟩, ⟨"sklearn", ["skl", "scikitlearn", "scikit-learn"]⟩],
        ∀ j ∈ [(⟨"nimble", []⟩ : Iface), ⟨"custom", []⟩, ⟨"autoimpute", []⟩,
        ⟨"keras", ["tensorflow.keras", "tf.keras"]⟩, ⟨"sklearn", ["skl", "scikitlearn", "scikit-learn"]⟩],
        ∀ a ∈ allNames i, ∀ b ∈ allNames j, SameLetters a b → i = j := by decide +kernel
    exact key i hi j hj a ha b hb hab
  · intro i hi
    rw [std_known] at hi
    revert i; decide +kernel
  · intro i hi
    rw [std_known] at hi
    revert i; decide +kernel

/-- `sklearn` and `SKL` stand for scikit-learn, whatever was asked before. -/
example (calls : List Call) :
    (unpack (std false) (run (std false) calls) "SKL.SVC").2 =
      .ok (⟨"sklearn", ["skl", "scikitlearn", "scikit-learn"]⟩, "SVC") :=
  (C109_resolve _ (std_ok false) calls _ (std_known.2 (by decide)) "SKL" "SVC" (by decide)
    (Or.inr ⟨"skl", by decide, by decide⟩)).1 (Or.inr ⟨by decide, by decide⟩)

/-- Keras, not installed. -/
example (calls : List Call) :
    (unpack (std false) (run (std false) calls) "keras.Sequential").2 = .error .PackageException := by
  rw [show "keras.Sequential" = "keras" ++ "." ++ "Sequential" by decide +kernel,
    (C109_resolve _ (std_ok false) calls ⟨"keras", ["tensorflow.keras", "tf.keras"]⟩ (std_known.2 (by decide))
      "keras" "Sequential" (by decide) (Or.inl rfl)).2 (by unfold Usable; decide)]

/-- The names, in their order. -/
example : (learnerNames (std false) (start (std false))).2 =
    ["nimble.KNNClassifier", "nimble.RidgeRegression", "sklearn.SVC", "sklearn.LinearRegression"] := by
  decide +kernel

/-- `tf.keras`, installed. -/
example (calls : List Call) :
    (learnerNamesOf (std true) (run (std true) calls) "tf.keras").2 = .ok [] ∧
      (unpack (std true) (run (std true) calls) "tf.keras.Sequential").2 = .error .InvalidArgumentValue := by
  have h := C109_dotted_alias_violated (std true) (std_ok true) calls ⟨"keras", ["tensorflow.keras", "tf.keras"]⟩
    (Or.inr ⟨by decide, by decide⟩) "tf" "keras" "Sequential" (by decide)
    (Or.inr ⟨"tf.keras", by decide, by decide⟩)
    (by intro j hj; rw [std_known] at hj; unfold Answers; revert j; decide +kernel)
  exact h

end Lookup
end Nimble
