import Verif.Model.NormalizeFeatures
import Verif.Props.AxisReplace

/-!
# C93: features.normalize treats the two objects feature by feature
-/

namespace Nimble.NormF
open Nimble Nimble.Obj
variable {V : Type}

/-! ## Specification -/

/-- `a'` and `b'` are `a` and `b` after normalisation of the features `want`: shapes and names are as before, each wanted
feature of the two holds what the function returned for the two features **as they were**, all others are unchanged. -/
structure Normalised (a b a' b' : Obj V) (want : Nat → Bool) (f : List V → List V → Res (List V × List V)) : Prop where
  wfA : a'.WF
  wfB : b'.WF
  ptsA : a'.pts = a.pts
  ftsA : a'.fts = a.fts
  ptsB : b'.pts = b.pts
  ftsB : b'.fts = b.fts
  done : ∀ i : Nat, i < a.fts.len → want i = true →
    f (a.vector .feature i) (b.vector .feature i) = .ok (a'.vector .feature i, b'.vector .feature i)
  keptA : ∀ i : Nat, i < a.fts.len → want i = false → a'.vector .feature i = a.vector .feature i
  keptB : ∀ i : Nat, i < a.fts.len → want i = false → b'.vector .feature i = b.vector .feature i

/-- The function can be used for feature `i`: it returns as many values as each object has points, and there are some. -/
def Usable (a b : Obj V) (f : List V → List V → Res (List V × List V)) (i : Nat) : Prop :=
  ∃ p, f (a.vector .feature i) (b.vector .feature i) = .ok p ∧ a.pts.len ≠ 0 ∧ b.pts.len ≠ 0 ∧
    p.1.length = a.pts.len ∧ p.2.length = b.pts.len

/-- The features are not known to be different ones: there are as many, and if both objects have names they are equal in
order. -/
def Compatible (a b : Obj V) : Prop :=
  a.fts.len = b.fts.len ∧ ∀ l m, a.fts.getNamesNoGen = some l → b.fts.getNamesNoGen = some m → l = m

/-! ## The loop -/

private theorem loop_done (f : List V → List V → Res (List V × List V)) (want : Nat → Bool) :
    ∀ (is : List Nat) (a b : Obj V), a.WF → b.WF → is.Nodup → a.fts.len = b.fts.len → (∀ i ∈ is, i < a.fts.len) →
    (∀ i ∈ is, want i = true → Usable a b f i) →
    ∃ a' b', normLoop f want is a b = ((a', b'), .ok ()) ∧
      Normalised a b a' b' (fun i => decide (i ∈ is) && want i) f
  | [], a, b, ha, hb, _, _, _, _ =>
    ⟨a, b, rfl, ha, hb, rfl, rfl, rfl, rfl, by simp, fun _ _ _ => rfl, fun _ _ _ => rfl⟩
  | i :: is, a, b, ha, hb, hnd, hlen, hlt, hok => by
    obtain ⟨hi', hnd'⟩ := List.nodup_cons.mp hnd
    have hi := hlt i (by simp)
    unfold normLoop
    by_cases hw : want i = true
    · rw [if_pos hw]
      obtain ⟨p, hp, hpa, hpb, hl1, hl2⟩ := hok i (by simp) hw
      obtain ⟨a1, e1, w1, p1, f1, v1⟩ := step_ok (ax := .feature) ha hi hpa (by show a.fts.len ≠ 0; omega) hl1
      obtain ⟨b1, e2, w2, p2, f2, v2⟩ := step_ok (ax := .feature) (i := i) hb (by show i < b.fts.len; omega) hpb
        (by show b.fts.len ≠ 0; omega) hl2
      have v1' : ∀ j, j < a.fts.len → a1.vector .feature j = if j = i then p.1 else a.vector .feature j := v1
      have v2' : ∀ j, j < b.fts.len → b1.vector .feature j = if j = i then p.2 else b.vector .feature j := v2
      rw [hp]
      simp only [e1, e2]
      obtain ⟨a', b', g, N⟩ := loop_done f want is a1 b1 w1 w2 hnd' (by rw [f1, f2]; exact hlen)
        (fun j hj => by rw [f1]; exact hlt j (by simp [hj]))
        (by
          intro j hj hwj
          obtain ⟨q, q1, q2, q3, q4, q5⟩ := hok j (by simp [hj]) hwj
          have hji : j ≠ i := fun h => hi' (h ▸ hj)
          refine ⟨q, ?_, by rw [p1]; exact q2, by rw [p2]; exact q3, by rw [p1]; exact q4, by rw [p2]; exact q5⟩
          have hja := hlt j (by simp [hj])
          rw [v1' j hja, v2' j (by omega), if_neg hji, if_neg hji]
          exact q1)
      refine ⟨a', b', g, N.wfA, N.wfB, N.ptsA.trans p1, N.ftsA.trans f1, N.ptsB.trans p2, N.ftsB.trans f2, ?_, ?_, ?_⟩
      · intro j hj hjw
        have hjw' : (j = i ∨ j ∈ is) ∧ want j = true := by simpa using hjw
        by_cases hji : j = i
        · subst hji
          rw [N.keptA j (by rw [f1]; exact hj) (by simp [hi']), N.keptB j (by rw [f1]; exact hj) (by simp [hi']),
            v1' j hj, v2' j (by omega), if_pos rfl, if_pos rfl, hp]
        · have := N.done j (by rw [f1]; exact hj) (by simp [hjw'.2, hjw'.1.resolve_left hji])
          rw [v1' j hj, v2' j (by omega), if_neg hji, if_neg hji] at this
          exact this
      · intro j hj hjw
        have hji : j ≠ i := by rintro rfl; simp [hw] at hjw
        rw [N.keptA j (by rw [f1]; exact hj) (by simpa [hji] using hjw), v1' j hj, if_neg hji]
      · intro j hj hjw
        have hji : j ≠ i := by rintro rfl; simp [hw] at hjw
        rw [N.keptB j (by rw [f1]; exact hj) (by simpa [hji] using hjw), v2' j (by omega), if_neg hji]
    · rw [if_neg hw]
      obtain ⟨a', b', g, N⟩ := loop_done f want is a b ha hb hnd' hlen (fun j hj => hlt j (by simp [hj]))
        (fun j hj => hok j (by simp [hj]))
      have hset : (fun j => decide (j ∈ i :: is) && want j) = (fun j => decide (j ∈ is) && want j) := by
        funext j
        by_cases hji : j = i
        · subst hji; simp [hw]
        · simp [hji]
      exact ⟨a', b', g, by rw [hset]; exact N⟩

private theorem loop_usable (f : List V → List V → Res (List V × List V)) (want : Nat → Bool) :
    ∀ (is : List Nat) (a b a' b' : Obj V), a.WF → b.WF → is.Nodup → a.fts.len = b.fts.len → (∀ i ∈ is, i < a.fts.len) →
    normLoop f want is a b = ((a', b'), .ok ()) → ∀ i ∈ is, want i = true → Usable a b f i
  | [], _, _, _, _, _, _, _, _, _, _ => by simp
  | i :: is, a, b, a', b', ha, hb, hnd, hlen, hlt, hr => by
    obtain ⟨hi', hnd'⟩ := List.nodup_cons.mp hnd
    have hi := hlt i (by simp)
    unfold normLoop at hr
    by_cases hw : want i = true
    · rw [if_pos hw] at hr
      cases hp : f (a.vector .feature i) (b.vector .feature i) with
      | error e => rw [hp] at hr; cases hr
      | ok p =>
        rw [hp] at hr
        dsimp only at hr
        by_cases hg1 : a.pts.len ≠ 0 ∧ p.1.length = a.pts.len
        · obtain ⟨a1, e1, w1, p1, f1, v1⟩ := step_ok (ax := .feature) ha hi hg1.1 (by show a.fts.len ≠ 0; omega) hg1.2
          rw [e1] at hr
          dsimp only at hr
          by_cases hg2 : b.pts.len ≠ 0 ∧ p.2.length = b.pts.len
          · obtain ⟨b1, e2, w2, p2, f2, v2⟩ := step_ok (ax := .feature) (i := i) hb (by show i < b.fts.len; omega) hg2.1
              (by show b.fts.len ≠ 0; omega) hg2.2
            rw [e2] at hr
            dsimp only at hr
            have v1' : ∀ j, j < a.fts.len → a1.vector .feature j = if j = i then p.1 else a.vector .feature j := v1
            have v2' : ∀ j, j < b.fts.len → b1.vector .feature j = if j = i then p.2 else b.vector .feature j := v2
            have ih := loop_usable f want is a1 b1 a' b' w1 w2 hnd' (by rw [f1, f2]; exact hlen)
              (fun j hj => by rw [f1]; exact hlt j (by simp [hj])) hr
            intro j hj hjw
            rcases List.mem_cons.mp hj with rfl | hj
            · exact ⟨p, hp, hg1.1, hg2.1, hg1.2, hg2.2⟩
            · have hji : j ≠ i := fun h => hi' (h ▸ hj)
              have hja := hlt j (by simp [hj])
              obtain ⟨q, q1, q2, q3, q4, q5⟩ := ih j hj hjw
              rw [v1' j hja, v2' j (by omega), if_neg hji, if_neg hji] at q1
              exact ⟨q, q1, by rw [← p1]; exact q2, by rw [← p2]; exact q3, by rw [← p1]; exact q4,
                by rw [← p2]; exact q5⟩
          · obtain ⟨e, he⟩ := step_refused (o := b) (ax := .feature) (i := i) (v := p.2) (by show i < b.fts.len; omega)
              (by show b.pts.len = 0 ∨ b.fts.len = 0 ∨ p.2.length ≠ b.pts.len; tauto)
            rw [he] at hr
            cases hr
        · obtain ⟨e, he⟩ := step_refused (o := a) (ax := .feature) (i := i) (v := p.1) hi
            (by show a.pts.len = 0 ∨ a.fts.len = 0 ∨ p.1.length ≠ a.pts.len; tauto)
          rw [he] at hr
          cases hr
    · rw [if_neg hw] at hr
      intro j hj hjw
      rcases List.mem_cons.mp hj with rfl | hj
      · exact absurd hjw hw
      · exact loop_usable f want is a b a' b' ha hb hnd' hlen (fun j hj => hlt j (by simp [hj])) hr j hj hjw

/-! ## Arguments -/

private theorem namesAgree_iff {a b : AxisSt} : namesAgree a b = true ↔
    ∀ l m, a.getNamesNoGen = some l → b.getNamesNoGen = some m → l = m := by
  unfold namesAgree
  cases a.getNamesNoGen <;> cases b.getNamesNoGen <;> simp

private theorem both_eq {f : List V → List V → Res (List V × List V)} {a b : Obj V} {w : Which} (hc : Compatible a b) :
    normalizeBoth f a b w =
      match iterated w with
      | .error e => ((a, b), .error e)
      | .ok ids => match resolveLimit a.fts ids with
        | .error e => ((a, b), .error e)
        | .ok lim => normLoop f (inLimit lim) (List.range a.fts.len) a b := by
  unfold normalizeBoth
  rw [if_neg (by simpa using hc.1), if_neg (by rw [namesAgree_iff.mpr hc.2]; simp)]
  cases iterated w with
  | error e => rfl
  | ok ids => dsimp only; cases resolveLimit a.fts ids <;> rfl

private theorem not_compat {f : List V → List V → Res (List V × List V)} {a b : Obj V} {w : Which}
    (hc : ¬ Compatible a b) : normalizeBoth f a b w = ((a, b), .error .InvalidArgumentValue) := by
  unfold normalizeBoth
  by_cases h1 : a.fts.len = b.fts.len
  · rw [if_neg (by simpa using h1)]
    by_cases h2 : namesAgree a.fts b.fts = true
    · exact absurd ⟨h1, namesAgree_iff.mp h2⟩ hc
    · rw [if_pos (by simpa using h2)]
  · rw [if_pos h1]

private theorem denotes_iff {a : AxisSt} {ids : Option (List Ident)} {lim : Option (List Nat)}
    (h : resolveLimit a ids = .ok lim) : Denotes a ids (inLimit lim) := by
  cases ids with
  | none => cases h; exact .inl ⟨rfl, fun _ => rfl⟩
  | some l =>
    simp only [resolveLimit] at h
    cases hl : resolveIdents a l with
    | error e => rw [hl] at h; cases h
    | ok idx => rw [hl] at h; cases h; exact .inr ⟨l, idx, rfl, hl, fun _ => rfl⟩

private theorem denotes_unique {a : AxisSt} {ids : Option (List Ident)} {w1 w2 : Nat → Bool}
    (h1 : Denotes a ids w1) (h2 : Denotes a ids w2) : w1 = w2 := by
  funext i
  rcases h1 with ⟨e1, h1⟩ | ⟨l1, x1, e1, r1, h1⟩ <;> rcases h2 with ⟨e2, h2⟩ | ⟨l2, x2, e2, r2, h2⟩
  · rw [h1, h2]
  · subst e1; cases e2
  · subst e1; cases e2
  · subst e1; cases e2
    rw [r1] at r2; cases r2
    rw [h1, h2]

private theorem denotes_resolve {a : AxisSt} {ids : Option (List Ident)} {want : Nat → Bool} (h : Denotes a ids want) :
    ∃ lim, resolveLimit a ids = .ok lim ∧ inLimit lim = want := by
  rcases h with ⟨e, h⟩ | ⟨l, idx, e, r, h⟩
  · subst e
    exact ⟨none, rfl, by funext i; rw [h]; rfl⟩
  · subst e
    exact ⟨some idx, by simp [resolveLimit, r, Except.map], by funext i; rw [h]; rfl⟩

private theorem range_set {a b a' b' : Obj V} {want : Nat → Bool} {f : List V → List V → Res (List V × List V)}
    (N : Normalised a b a' b' (fun i => decide (i ∈ List.range a.fts.len) && want i) f) : Normalised a b a' b' want f :=
  { wfA := N.wfA, wfB := N.wfB, ptsA := N.ptsA, ftsA := N.ftsA, ptsB := N.ptsB, ftsB := N.ftsB
    done := fun i hi hw => N.done i hi (by simp [hi, hw])
    keptA := fun i hi hw => N.keptA i hi (by simp [hw])
    keptB := fun i hi hw => N.keptB i hi (by simp [hw]) }

/-! ## Theorems -/

/-- **C93** (one object): the chosen features hold what the function returns for them, all else is unchanged. -/
theorem C93_one {f : List V → Res (List V)} {a a' : Obj V} {w : Which} (h : a.WF)
    (hr : normalizeOne f a w = (a', .ok ())) :
    ∃ want, Denotes a.fts (limit w) want ∧ Transformed a a' .feature want (fun _ => f) :=
  C52_transform h hr

/-- **C93** (two objects): after a successful call each chosen feature of both objects holds what the function returned
for the pair as it was before the call; everything else, names and shapes included, is unchanged. -/
theorem C93_both {f : List V → List V → Res (List V × List V)} {a b a' b' : Obj V} {w : Which} {ids : Option (List Ident)}
    (ha : a.WF) (hb : b.WF) (hw : iterated w = .ok ids) (hr : normalizeBoth f a b w = ((a', b'), .ok ())) :
    ∃ want, Denotes a.fts ids want ∧ Normalised a b a' b' want f := by
  by_cases hc : Compatible a b
  · rw [both_eq hc, hw] at hr
    dsimp only at hr
    cases hl : resolveLimit a.fts ids with
    | error e => rw [hl] at hr; cases hr
    | ok lim =>
      rw [hl] at hr
      dsimp only at hr
      refine ⟨inLimit lim, denotes_iff hl, ?_⟩
      have hu := loop_usable f _ _ a b a' b' ha hb List.nodup_range hc.1 (by simp) hr
      obtain ⟨a1, b1, g, N⟩ := loop_done f _ _ a b ha hb List.nodup_range hc.1 (by simp) hu
      rw [g] at hr
      cases hr
      exact range_set N
  · rw [not_compat hc] at hr
    cases hr

/-- **C93** (which calls are accepted): exactly those with compatible features, `features` a list of existing ones (or
none), and a function usable for each of them. -/
theorem C93_accepted {f : List V → List V → Res (List V × List V)} {a b : Obj V} {w : Which} {ids : Option (List Ident)}
    (ha : a.WF) (hb : b.WF) (hw : iterated w = .ok ids) :
    (∃ p, normalizeBoth f a b w = (p, .ok ())) ↔
      Compatible a b ∧ ∃ want, Denotes a.fts ids want ∧ ∀ i, i < a.fts.len → want i = true → Usable a b f i := by
  constructor
  · rintro ⟨⟨a', b'⟩, hr⟩
    by_cases hc : Compatible a b
    · refine ⟨hc, ?_⟩
      rw [both_eq hc, hw] at hr
      dsimp only at hr
      cases hl : resolveLimit a.fts ids with
      | error e => rw [hl] at hr; cases hr
      | ok lim =>
        rw [hl] at hr
        dsimp only at hr
        exact ⟨inLimit lim, denotes_iff hl, fun i hi hwi =>
          loop_usable f _ _ a b a' b' ha hb List.nodup_range hc.1 (by simp) hr i (by simpa using hi) hwi⟩
    · rw [not_compat hc] at hr
      cases hr
  · rintro ⟨hc, want, hd, hu⟩
    obtain ⟨lim, hl, he⟩ := denotes_resolve hd
    rw [both_eq hc, hw]
    dsimp only
    rw [hl]
    dsimp only
    obtain ⟨a', b', g, _⟩ := loop_done f (inLimit lim) (List.range a.fts.len) a b ha hb List.nodup_range hc.1 (by simp)
      (fun i hi hwi => hu i (by simpa using hi) (by rw [← he]; exact hwi))
    exact ⟨_, g⟩

/-- **C93** (refusals before the first feature): incompatible objects and features that do not exist leave both objects
as they were. -/
theorem C93_refused_unchanged {f : List V → List V → Res (List V × List V)} {a b : Obj V} {w : Which}
    (hbad : ¬ Compatible a b ∨ (∃ e, iterated w = .error e) ∨
      ∃ ids, iterated w = .ok ids ∧ ∀ want, ¬ Denotes a.fts ids want) :
    ∃ e, normalizeBoth f a b w = ((a, b), .error e) := by
  by_cases hc : Compatible a b
  · rcases hbad with h | ⟨e, h⟩ | ⟨ids, h, hd⟩
    · exact absurd hc h
    · exact ⟨e, by rw [both_eq hc, h]⟩
    · rw [both_eq hc, h]
      dsimp only
      cases hl : resolveLimit a.fts ids with
      | error e => exact ⟨e, rfl⟩
      | ok lim => exact absurd (denotes_iff hl) (hd _)
  · exact ⟨_, not_compat hc⟩

/-- **C93** (the caller's feature names decide): two calls on the same objects whose `features` denote the same features
do the same, whatever identifiers are used. -/
theorem C93_identifiers {f : List V → List V → Res (List V × List V)} {a b : Obj V} {l l' : List Ident}
    {want : Nat → Bool} (h : Denotes a.fts (some l) want) (h' : Denotes a.fts (some l') want) :
    normalizeBoth f a b (.list l) = normalizeBoth f a b (.list l') := by
  by_cases hc : Compatible a b
  · obtain ⟨m, hm, em⟩ := denotes_resolve h
    obtain ⟨m', hm', em'⟩ := denotes_resolve h'
    rw [both_eq hc, both_eq hc]
    simp only [iterated, hm, hm', em, em']
  · rw [not_compat hc, not_compat hc]

/-- **Violated.** "`features` may be a single identifier" (features.py:1886-1889): true of the call without
`applyResultTo`; with it a single integer is always refused. -/
theorem C93_single_index_violated (f : List V → List V → Res (List V × List V)) (a b : Obj V) (i : Int) :
    ∃ e, normalizeBoth f a b (.one (.int i)) = ((a, b), .error e) :=
  C93_refused_unchanged (.inr (.inl ⟨_, rfl⟩))

private theorem resolve_error {a : AxisSt} {l : List Ident} {x : Ident} (hx : x ∈ l) {e : Err}
    (h : a.getIndex x = .error e) : ∃ e', resolveIdents a l = .error e' := by
  induction l with
  | nil => cases hx
  | cons y l ih =>
    unfold resolveIdents
    rcases List.mem_cons.mp hx with rfl | hx
    · exact ⟨e, by rw [h]; rfl⟩
    · cases hy : a.getIndex y with
      | error e' => exact ⟨e', rfl⟩
      | ok v =>
        obtain ⟨e', he'⟩ := ih hx
        exact ⟨e', by simp [he', bind, Except.bind]⟩

/-- **Violated.** And a single name is taken character by character: a name with a character that is not itself the name
of a feature is always refused, also if it names a feature. -/
theorem C93_single_name_violated (f : List V → List V → Res (List V × List V)) (a b : Obj V) (s : String) (c : Char)
    (hc : c ∈ s.toList) (hn : ∃ e, a.fts.getIndex (.str (String.singleton c)) = .error e) :
    ∃ e, normalizeBoth f a b (.one (.str s)) = ((a, b), .error e) := by
  obtain ⟨e, hn⟩ := hn
  obtain ⟨e', he'⟩ := resolve_error (l := s.toList.map (fun c => Ident.str (String.singleton c)))
    (List.mem_map.mpr ⟨c, hc, rfl⟩) hn
  refine C93_refused_unchanged (.inr (.inr ⟨_, rfl, ?_⟩))
  rintro want (⟨h, _⟩ | ⟨l, idx, h, h2, _⟩)
  · cases h
  · cases h
    rw [he'] at h2
    cases h2

/-! ## A concrete case -/

/-- Two features, named. -/
def normA : Obj Int := ⟨[[1, 10], [3, 30]], ⟨2, none⟩, ⟨2, some ⟨[("a", 0), ("bc", 1)], [some "a", some "bc"]⟩⟩⟩

/-- One point, no names. -/
def normB : Obj Int := ⟨[[5, 50]], ⟨1, none⟩, ⟨2, none⟩⟩

theorem normA_wf : normA.WF :=
  ⟨rfl, by decide, none_ok _, mk_ok (l := [some "a", some "bc"]) rfl (by decide)⟩

theorem normB_wf : normB.WF := ⟨rfl, by decide, none_ok _, none_ok _⟩

/-- Subtract the smallest value of the first from both. -/
def shift (v w : List Int) : Res (List Int × List Int) :=
  .ok (v.map (· - v.headD 0), w.map (· - v.headD 0))

example : normalizeBoth shift normA normB (.list [.str "bc"]) =
    (({ normA with data := [[1, 0], [3, 20]] }, { normB with data := [[5, 40]] }), .ok ()) := by
  decide +kernel

example : (normalizeBoth shift normA normB (.one (.str "bc"))).2 = .error .KeyError := by decide +kernel

example : (normalizeOne (fun v => .ok (v.map (· + 1))) normA (.one (.str "bc"))) =
    ({ normA with data := [[1, 11], [3, 31]] }, .ok ()) := by decide +kernel

example : Compatible normA normB := ⟨rfl, fun l m _ h => by cases h⟩

/-- **Violated.** "A call that raises leaves the objects as they were": if the function returns the wrong number of values
for the second object, the first one has already been changed, so the two are no longer normalised alike. -/
theorem C93_atomic_violated :
    ∃ (f : List Int → List Int → Res (List Int × List Int)) (a b a' : Obj Int) (e : Err), a.WF ∧ b.WF ∧ Compatible a b ∧
      normalizeBoth f a b .all = ((a', b), .error e) ∧ a' ≠ a :=
  ⟨fun v _ => .ok (v.map (· * 0), []), normA, normB, { normA with data := [[0, 10], [0, 30]] }, .InvalidArgumentValue,
    normA_wf, normB_wf, ⟨rfl, fun l m _ h => by cases h⟩, by decide +kernel, by decide +kernel⟩

end Nimble.NormF
