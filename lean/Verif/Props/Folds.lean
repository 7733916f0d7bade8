import Verif.Lemmas.Group
import Verif.Lemmas.Permute
import Verif.Props.Structural
import Verif.Props.Permute
import Verif.Props.Insert

/-!
# C20, C21 – cross validation folds
-/

namespace Nimble

open Obj

variable {V : Type}

/-! ## C20 – the folds partition the points -/

/-- First position of fold `f` in the shuffled indices. -/
private def foldPos (m r f : Nat) : Nat := f * m + min f r

private theorem foldEnd_eq (m r f : Nat) : foldEnd m r f = foldPos m r (f + 1) := by
  unfold foldEnd foldPos
  split <;> omega

private theorem foldPos_step (m r f : Nat) :
    foldPos m r f + m ≤ foldPos m r (f + 1) ∧ foldPos m r (f + 1) ≤ foldPos m r f + m + 1 := by
  unfold foldPos
  rw [Nat.succ_mul]
  omega

private theorem foldPos_mono (m r f t : Nat) : foldPos m r f ≤ foldPos m r (f + t) := by
  induction t with
  | zero => exact Nat.le_refl _
  | succ t ih => exact ih.trans (by have := foldPos_step m r (f + t); rw [← Nat.add_assoc]; omega)

private theorem kfoldLoop_spec (indices : List Nat) (m r : Nat) (todo : Nat) : ∀ (fold : Nat),
    foldPos m r (fold + todo) ≤ indices.length →
    (kfoldLoop indices m r fold todo (foldPos m r fold)).length = todo ∧
    (kfoldLoop indices m r fold todo (foldPos m r fold)).flatten =
      (indices.take (foldPos m r (fold + todo))).drop (foldPos m r fold) ∧
    ∀ f ∈ kfoldLoop indices m r fold todo (foldPos m r fold), f.length = m ∨ f.length = m + 1 := by
  induction todo with
  | zero =>
    intro fold _
    refine ⟨rfl, ?_, by simp [kfoldLoop]⟩
    simp only [kfoldLoop, List.flatten_nil, Nat.add_zero]
    rw [List.drop_take]; simp
  | succ todo ih =>
    intro fold hle
    have he : fold + (todo + 1) = (fold + 1) + todo := by omega
    obtain ⟨h1, h2, h3⟩ := ih (fold + 1) (by rw [← he]; exact hle)
    have hs := foldPos_step m r fold
    have hm := foldPos_mono m r (fold + 1) todo
    have hle' : foldPos m r (fold + 1 + todo) ≤ indices.length := he ▸ hle
    simp only [kfoldLoop, foldEnd_eq]
    refine ⟨by simp [h1], ?_, ?_⟩
    · rw [List.flatten_cons, h2, he]
      simp only [List.drop_take]
      have : foldPos m r (fold + 1 + todo) - foldPos m r fold =
          (foldPos m r (fold + 1) - foldPos m r fold) +
            (foldPos m r (fold + 1 + todo) - foldPos m r (fold + 1)) := by omega
      rw [this, List.take_add, List.drop_drop]
      congr 3
      omega
    · intro f hf
      rw [List.mem_cons] at hf
      rcases hf with rfl | hf
      · simp only [List.length_drop, List.length_take]
        omega
      · exact h3 f hf

/-- C20. K folds of `n` points are accepted exactly when `1 ≤ k ≤ n`. -/
theorem C20_kfold_accepts_iff (shuffled : List Nat) (n : Nat) (k : Int) :
    (∃ fs, kfoldList shuffled n k = .ok fs) ↔ 1 ≤ k ∧ k ≤ n := by
  unfold kfoldList
  by_cases hk : k ≤ 0
  · rw [if_pos hk]
    simp; omega
  · rw [if_neg hk]
    have hpos : 0 < k.toNat := by omega
    by_cases h0 : n / k.toNat = 0
    · rw [if_pos h0]
      rw [Nat.div_eq_zero_iff] at h0
      simp; omega
    · rw [if_neg h0]
      rw [Nat.div_eq_zero_iff] at h0
      simp; omega

/-- C20. Whatever the shuffle, the folds number `k`, together hold every point exactly once, are
non-empty and differ in size by at most one. -/
theorem C20_kfold_partition {shuffled : List Nat} {n : Nat} {k : Int} {fs : List (List Nat)}
    (hs : ShuffleSpec n shuffled) (h : kfoldList shuffled n k = .ok fs) :
    (fs.length : Int) = k ∧ fs.flatten.Perm (List.range n) ∧ (∀ f ∈ fs, f ≠ []) ∧
      ∀ f ∈ fs, ∀ g ∈ fs, f.length ≤ g.length + 1 := by
  have hk := (C20_kfold_accepts_iff shuffled n k).1 ⟨fs, h⟩
  unfold kfoldList at h
  rw [if_neg (by omega)] at h
  have hpos : 0 < k.toNat := by omega
  have hm : n / k.toNat ≠ 0 := by rw [Ne, Nat.div_eq_zero_iff]; omega
  rw [if_neg hm] at h
  cases h
  have hlen : shuffled.length = n := by simpa using List.Perm.length_eq hs
  have hmod : n % k.toNat < k.toNat := Nat.mod_lt _ hpos
  have htot : foldPos (n / k.toNat) (n % k.toNat) (0 + k.toNat) = n := by
    unfold foldPos
    rw [Nat.zero_add, Nat.min_eq_right (Nat.le_of_lt hmod)]
    exact Nat.div_add_mod n k.toNat
  have h0 : foldPos (n / k.toNat) (n % k.toNat) 0 = 0 := by simp [foldPos]
  obtain ⟨h1, h2, h3⟩ := kfoldLoop_spec shuffled (n / k.toNat) (n % k.toNat) k.toNat 0
    (by rw [htot, hlen])
  rw [h0] at h1 h2 h3
  refine ⟨by omega, ?_, ?_, ?_⟩
  · rw [h2, htot, List.drop_zero, List.take_of_length_le (by omega)]
    exact hs
  · intro f hf he
    have := h3 f hf
    simp only [he, List.length_nil] at this
    rcases this with h | h
    · exact hm h.symm
    · exact absurd h.symm (Nat.succ_ne_zero _)
  · intro f hf g hg
    have := h3 f hf; have := h3 g hg
    omega

private theorem zipIdx_filter_fst {K : Type} (p : K → Bool) (vals : List K) (s : Nat) :
    ((vals.zipIdx s).filter (fun q => p q.1)).map Prod.snd =
      (List.range' s vals.length).filter (fun i => (vals[i - s]?).any p) := by
  induction vals generalizing s with
  | nil => simp
  | cons x xs ih =>
    have hrest : (List.range' (s + 1) xs.length).filter (fun i => ((x :: xs)[i - s]?).any p) =
        (List.range' (s + 1) xs.length).filter (fun i => (xs[i - (s + 1)]?).any p) := by
      apply List.filter_congr
      intro i hi
      rw [List.mem_range'_1] at hi
      have : i - s = (i - (s + 1)) + 1 := by omega
      rw [this, List.getElem?_cons_succ]
    simp only [List.zipIdx_cons, List.filter_cons, List.length_cons, List.range'_succ, Nat.sub_self,
      List.getElem?_cons_zero, Option.any_some, hrest, ← ih]
    split <;> simp

/-- C20. Folds by a fold feature: one fold per distinct value in order of first occurrence, holding
exactly the points with that value, in order; so the folds partition the points and no value is
split over two folds. -/
theorem C20_group_folds {K : Type} [DecidableEq K] (vals : List K) :
    groupFoldList vals = (firstOcc vals).map
        (fun v => (List.range vals.length).filter (fun i => vals[i]? = some v)) ∧
      (groupFoldList vals).flatten.Perm (List.range vals.length) := by
  have h1 : groupFoldList vals = (firstOcc vals).map
      (fun v => (vals.zipIdx.filter (fun p => p.1 = v)).map Prod.snd) := by
    unfold groupFoldList PyDict.values
    rw [groupPairs_eq, List.map_map]
    simp only [List.zipIdx_map_fst]
    rfl
  constructor
  · rw [h1]
    apply List.map_congr_left
    intro v _
    rw [zipIdx_filter_fst (fun x => decide (x = v)) vals 0, List.range_eq_range']
    apply List.filter_congr
    intro i _
    simp only [Nat.sub_zero]
    cases vals[i]? <;> simp
  · rw [h1]
    have := flatten_groups_perm (l := vals.zipIdx) (nodup_firstOcc vals) (by
      intro p hp
      rw [mem_firstOcc]
      have := List.mem_map_of_mem (f := Prod.fst) hp
      simpa using this)
    simpa [List.range_eq_range'] using this

/-- C20. Points with a missing fold feature are left out and no others. -/
theorem C20_group_keeps_nonmissing {K : Type} (missing : K → Bool) (vals : List K) :
    keepNonMissing missing vals =
      (List.range vals.length).filter (fun i => (vals[i]?).any (fun v => !missing v)) := by
  unfold keepNonMissing
  rw [zipIdx_filter_fst (fun x => !missing x) vals 0, List.range_eq_range']
  rfl

/-! ## C21 – X and Y stay aligned -/

/-- A (train, test) pair cut from an object by the row indices `tr` and `te`: the rows, with their
names, in that order, and the features unchanged. -/
def SplitBy (tr te : List Nat) : Option (Obj V) → Option (Obj V × Obj V) → Prop
  | none, none => True
  | some d, some (train, test) =>
    train.lines .point = pick (d.lines .point) tr ∧ test.lines .point = pick (d.lines .point) te ∧
    train.fts.getNames = d.fts.getNames ∧ test.fts.getNames = d.fts.getNames ∧
    train.fts.len = d.fts.len ∧ test.fts.len = d.fts.len ∧ train.WF ∧ test.WF
  | _, _ => False

private theorem ints_targets {samp : List Nat → Nat → List Nat} {o : Obj V} (h : o.WF) (ax : Ax)
    {l : List Nat} (hn : l.Nodup) (hb : ∀ i ∈ l, i < (o.axis ax).len) :
    o.targets samp ax { target := some (.list (l.map (fun (i : Nat) => .int i))) } = .ok l := by
  rw [C08_list_selector h]
  exact ⟨(resolveIdents_ok_iff _ _ _ (h.axisOk ax)).1 (ints_resolve hb), hn⟩

theorem splitOne_spec {samp : List Nat → Nat → List Nat} {d : Obj V} (h : d.WF) {fold indices : List Nat}
    (hn : fold.Nodup) (hb : ∀ i ∈ fold, i < d.pts.len)
    (hi : ShuffleSpec (d.pts.len - fold.length) indices) :
    ∃ train test, splitOne samp fold indices d = .ok (train, test) ∧
      SelectedSpec d train .point (pick (restIdx d.pts.len fold) indices) ∧
      SelectedSpec d test .point fold := by
  obtain ⟨test, ht, hts⟩ := selected_spec h .point hn hb
  have hrem := remaining_spec h .point hn hb
  have hlen : (test.axis .point).len = fold.length := hts.len
  have hrl : ((d.remaining .point fold fold.length).axis .point).len = d.pts.len - fold.length := by
    rw [hrem.len]; exact length_rest hn hb
  obtain ⟨train, hp, htr⟩ := permute_ints hrem.wf .point (l := indices) (by rw [hrl]; exact hi)
  refine ⟨train, test, ?_, ?_, hts⟩
  · unfold splitOne extract
    simp only [ints_targets h .point hn hb, ht, bind, Except.bind, pure, Except.pure, hlen, hp]
  · exact SelectedSpec.trans h hrem htr (restIdx_bound (n := d.pts.len)) (by
      intro i hi'
      have h1 : i < ((d.remaining .point fold fold.length).axis .point).len := by
        rw [hrl]; exact perm_bound hi i hi'
      rw [hrem.len] at h1
      exact h1)

/-- The indices of a fold and of its training set together are all indices. -/
theorem train_test_perm {n : Nat} {fold indices : List Nat} (hn : fold.Nodup) (hb : ∀ i ∈ fold, i < n)
    (hi : ShuffleSpec (n - fold.length) indices) :
    (pick (restIdx n fold) indices ++ fold).Perm (List.range n) := by
  have h1 : (pick (restIdx n fold) indices).Perm (restIdx n fold) := by
    apply pick_perm
    have : (restIdx n fold).length = n - fold.length := length_rest hn hb
    rw [this]; exact hi
  exact (List.perm_append_comm).trans ((h1.append_left fold).trans (perm_targets_rest hn hb))

/-- C21. One fold: every data object (X, Y, …) is split by the *same* training indices `tr` and
testing indices `fold`; training and testing indices are disjoint and together all points. -/
theorem C21_split_aligned {samp : List Nat → Nat → List Nat} {data : List (Option (Obj V))} {n : Nat}
    {fold indices : List Nat} (hd : ∀ d, some d ∈ data → d.WF ∧ d.pts.len = n)
    (hn : fold.Nodup) (hb : ∀ i ∈ fold, i < n) (hi : ShuffleSpec (n - fold.length) indices) :
    ∃ (tr : List Nat) (rs : List (Option (Obj V × Obj V))),
      foldSplit samp fold indices data = .ok rs ∧
      (tr ++ fold).Perm (List.range n) ∧ List.Forall₂ (SplitBy tr fold) data rs := by
  refine ⟨pick (restIdx n fold) indices, ?_⟩
  have hperm := train_test_perm hn hb hi
  induction data with
  | nil => exact ⟨[], rfl, hperm, List.Forall₂.nil⟩
  | cons d ds ih =>
    obtain ⟨rs, h1, _, h3⟩ := ih (fun d hd' => hd d (List.mem_cons_of_mem _ hd'))
    cases d with
    | none =>
      refine ⟨none :: rs, ?_, hperm, List.Forall₂.cons trivial h3⟩
      unfold foldSplit at h1 ⊢
      simp only [List.mapM_cons, splitOpt, h1, bind, Except.bind, pure, Except.pure]
    | some d =>
      obtain ⟨hw, hl⟩ := hd d (by simp)
      subst hl
      obtain ⟨train, test, hs, s1, s2⟩ := splitOne_spec (samp := samp) hw hn hb hi
      have hbt : ∀ i ∈ pick (restIdx d.pts.len fold) indices, i < (d.axis .point).len := by
        intro i hi'
        exact List.mem_range.1 (hperm.mem_iff.1 (List.mem_append_left _ hi'))
      refine ⟨some (train, test) :: rs, ?_, hperm, List.Forall₂.cons ?_ h3⟩
      · unfold foldSplit at h1 ⊢
        simp only [List.mapM_cons, splitOpt, hs, Except.map, h1, bind, Except.bind, pure, Except.pure]
      · exact ⟨s1.lines hw hbt, s2.lines hw hb, s1.offNames, s2.offNames, s1.offLen, s2.offLen,
          s1.wf, s2.wf⟩

/-- Every fold of a partition is usable for `C21_split_aligned`. -/
theorem fold_valid {fs : List (List Nat)} {n : Nat} (h : fs.flatten.Perm (List.range n)) {f : List Nat}
    (hf : f ∈ fs) : f.Nodup ∧ ∀ i ∈ f, i < n := by
  constructor
  · exact (perm_nodup h).sublist (List.sublist_flatten_of_mem hf)
  · intro i hi
    exact perm_bound h i (List.mem_flatten.2 ⟨f, hf, hi⟩)

theorem runFolds_ok {R : Type} {body : List Nat → Res R} (todo : List (List Nat)) :
    ∀ {index i : Nat} {rs : List (List Nat × R)}, runFolds body todo index = (i, .ok rs) →
      i = 0 ∧ rs.map Prod.fst = todo ∧ ∀ p ∈ rs, body p.1 = .ok p.2 := by
  induction todo with
  | nil => intro index i rs h; simp only [runFolds, Prod.mk.injEq, Except.ok.injEq] at h; simp [← h.1, ← h.2]
  | cons f fs ih =>
    intro index i rs h
    simp only [runFolds] at h
    cases hb : body f with
    | error e => rw [hb] at h; simp at h
    | ok r =>
      rw [hb] at h
      simp only at h
      obtain ⟨j, q⟩ : ∃ j q, runFolds body fs (index + 1) = (j, q) := ⟨_, _, rfl⟩
      obtain ⟨q, hq⟩ := q
      rw [hq] at h
      cases q with
      | error e => simp at h
      | ok qs =>
        simp only [Prod.mk.injEq, Except.ok.injEq] at h
        obtain ⟨h1, h2, h3⟩ := ih hq
        refine ⟨h.1 ▸ h1, by rw [← h.2]; simp [h2], ?_⟩
        rw [← h.2]
        intro p hp
        rw [List.mem_cons] at hp
        rcases hp with rfl | hp
        · exact hb
        · exact h3 p hp

/-- C21. A validation that starts at the beginning and succeeds uses every fold exactly once, in
order, and leaves the iterator at the beginning – so the same holds for the next validation. -/
theorem C21_all_folds_tested_partial {R : Type} {folds : List (List Nat)} {body : List Nat → Res R} {i : Nat}
    {rs : List (List Nat × R)} (h : cvRun folds body 0 = (i, .ok rs)) :
    i = 0 ∧ rs.map Prod.fst = folds ∧ ∀ p ∈ rs, body p.1 = .ok p.2 := runFolds_ok _ h

/-- C21 fails after an exception: the iterator is not reset, so the next (successful) validation
tests only the remaining folds and leaves some points untested. -/
theorem C21_validation_after_failure_violated :
    ∃ (folds : List (List Nat)) (failing good : List Nat → Res Nat) (i : Nat) (e : Err)
      (rs : List (List Nat × Nat)),
      kfoldList [0, 1, 2] 3 3 = .ok folds ∧
      cvRun folds failing 0 = (i, .error e) ∧ (cvRun folds good i).2 = .ok rs ∧
      ¬ ((rs.map Prod.fst).flatten).Perm (List.range 3) := by
  refine ⟨[[0], [1], [2]], fun f => if f = [1] then .error .InvalidArgumentValue else .ok 0,
    fun _ => .ok 0, 2, .InvalidArgumentValue, [([2], 0)], ?_, ?_, ?_, ?_⟩ <;> decide

theorem lines_map_fst {o : Obj V} (h : o.WF) (ax : Ax) :
    (o.lines ax).map Prod.fst = (o.axis ax).getNames := by
  apply List.ext_getElem?
  intro k
  have hlen := (h.axisOk ax).length_getNames
  unfold Obj.lines
  rw [List.map_map, List.getElem?_map]
  by_cases hk : k < (o.axis ax).len
  · rw [List.getElem?_range hk, List.getElem?_eq_getElem (by omega)]
    simp [List.getElem?_eq_getElem (show k < (o.axis ax).getNames.length by omega)]
  · rw [List.getElem?_eq_none (by simpa using hk), List.getElem?_eq_none (by omega)]; rfl

/-- C21. The labels collected over all folds are, block by block, those of the points tested, so
they pair up with the predictions collected in the same order; every label is there once. -/
theorem C21_collected_labels {Y y0 : Obj V} {f0 : List Nat} {ys : List (Obj V)} {fs : List (List Nat)}
    (hY : Y.WF) (hp : (f0 ++ fs.flatten).Nodup) (hb : ∀ i ∈ f0 ++ fs.flatten, i < Y.pts.len)
    (h0 : SelectedSpec Y y0 .point f0) (hs : List.Forall₂ (fun f y => SelectedSpec Y y .point f) fs ys) :
    ∃ r, collectY y0 ys = .ok r ∧
      r.lines .point = pick (Y.lines .point) f0 ++ (fs.map (pick (Y.lines .point))).flatten := by
  suffices H : ∀ (acc : Obj V) (L : List Nat), acc.WF → (L ++ fs.flatten).Nodup →
      (∀ i ∈ L ++ fs.flatten, i < Y.pts.len) → acc.lines .point = pick (Y.lines .point) L →
      acc.pts.getNames = pick Y.pts.getNames L → acc.fts.getNames = Y.fts.getNames →
      acc.fts.len = Y.fts.len →
      ∃ r, collectY acc ys = .ok r ∧
        r.lines .point = pick (Y.lines .point) L ++ (fs.map (pick (Y.lines .point))).flatten by
    exact H y0 f0 h0.wf hp hb
      (h0.lines hY (fun i hi => hb i (List.mem_append_left _ hi))) h0.names h0.offNames h0.offLen
  clear h0 hp hb
  induction hs with
  | nil =>
    intro acc L _ _ _ hl _ _ _
    exact ⟨acc, rfl, by simp [hl]⟩
  | @cons f y fs ys hfy _ ih =>
    intro acc L hacc hnd hb hl hnm hfn hfl
    simp only [List.flatten_cons] at hnd hb
    have hbL : ∀ i ∈ L, i < Y.pts.getNames.length := by
      intro i hi
      rw [hY.pts.length_getNames]
      exact hb i (List.mem_append_left _ hi)
    have hbf : ∀ i ∈ f, i < Y.pts.len := fun i hi =>
      hb i (List.mem_append_right _ (List.mem_append_left _ hi))
    have hdisj : NamesDisjoint (acc.axis .point).getNames (y.axis .point).getNames := by
      intro s h1 h2
      rw [show (acc.axis .point).getNames = _ from hnm, mem_pick] at h1
      rw [hfy.names, mem_pick] at h2
      obtain ⟨i, hi, hi'⟩ := h1
      obtain ⟨j, hj, hj'⟩ := h2
      have hij : i = j := by
        have e1 := (hY.pts.consistent.getName_iff_getIndex s i).1 hi'
        have e2 := (hY.pts.consistent.getName_iff_getIndex s j).1 hj'
        rw [e1] at e2
        exact Int.ofNat.inj (Except.ok.inj e2)
      subst hij
      rw [List.nodup_append] at hnd
      exact hnd.2.2 i hi i (List.mem_append_left _ hj) rfl
    have hpos : insertPos (acc.axis .point) none = .ok acc.pts.len := rfl
    obtain ⟨acc', hacc'⟩ := (C12_insert_accepts_iff hacc hfy.wf .point hpos).2
      ⟨by show acc.fts.len = y.fts.len
          rw [hfl]; exact hfy.offLen.symm, hdisj,
        Or.inl (by show acc.fts.getNames = y.fts.getNames
                   rw [hfn]; exact hfy.offNames.symm)⟩
    obtain ⟨ins, _, hal, _, _, hw, _, hoff, hlines⟩ := insert_ok hacc hfy.wf hpos hacc'
    have hins : ins = y := by
      unfold alignNames at hal
      rw [if_neg (by
        have : (acc.axis Ax.point.off).getNames = (y.axis Ax.point.off).getNames := by
          show acc.fts.getNames = y.fts.getNames
          rw [hfn]; exact hfy.offNames.symm
        simp [this])] at hal
      cases hal; rfl
    subst hins
    have hlen : (acc.lines .point).length = acc.pts.len := length_lines acc .point
    rw [List.take_of_length_le (by omega), List.drop_of_length_le (by omega), List.append_nil, hl,
      hfy.lines hY hbf, ← pick_append] at hlines
    have hnames : acc'.pts.getNames = pick Y.pts.getNames (L ++ f) := by
      rw [show acc'.pts.getNames = (acc'.lines .point).map Prod.fst from (lines_map_fst hw .point).symm,
        hlines, ← pick_map, lines_map_fst hY .point]
      rfl
    obtain ⟨r, hr1, hr2⟩ := ih acc' (L ++ f) hw (by simpa using hnd) (by simpa using hb) hlines hnames
      (by rw [show acc'.fts = acc.fts from hoff]; exact hfn)
      (by rw [show acc'.fts = acc.fts from hoff]; exact hfl)
    refine ⟨r, ?_, ?_⟩
    · simp only [collectY, hacc', bind, Except.bind]; exact hr1
    · rw [hr2, pick_append]; simp

example : kfoldList [3, 0, 4, 1, 2] 5 2 = .ok [[3, 0, 4], [1, 2]] := by decide
example : ShuffleSpec 5 [3, 0, 4, 1, 2] := by unfold ShuffleSpec; decide
example : (foldSplit (fun l k => l.take k) [2] [1, 0] [some exObj, none]).map
    (·.map (Option.map (fun p => (p.1.lines .point, p.2.lines .point)))) =
    .ok [some ([(some "b", [3, 4]), (some "a", [1, 2])], [(some "c", [5, 6])]), none] := by rfl
example : (cvRun [[0], [1], [2]] (fun f => (.ok f.length : Res Nat)) 0).2 =
    .ok [([0], 1), ([1], 1), ([2], 1)] := by decide
example : groupFoldList ["a", "b", "a"] = [[0, 2], [1]] := by decide

/-- C21. The data of a cross validation are accepted exactly when the first object is present and
non-empty and every object given has as many points as the first. -/
theorem C21_data_check {V : Type} (data : List (Option (Obj V))) (n : Nat) :
    foldDataCheck data = .ok n ↔
      (∃ d, data.head? = some (some d) ∧ d.pts.len = n) ∧ 0 < n ∧
      ∀ o, some o ∈ data → o.pts.len = n := by
  cases data with
  | nil => simp [foldDataCheck]
  | cons x rest =>
    cases x with
    | none => simp [foldDataCheck]
    | some d =>
      simp only [foldDataCheck]
      split
      · next h =>
        constructor
        · intro hc; cases hc
        · rintro ⟨⟨d', hd, hn⟩, hpos, hall⟩
          exfalso
          simp only [List.head?_cons, Option.some.injEq] at hd
          subst hd
          rw [List.any_eq_true] at h
          obtain ⟨y, hy, h2⟩ := h
          cases y with
          | none => simp at h2
          | some o =>
            have := hall o hy
            simp at h2
            omega
      · next h =>
        constructor
        · intro hc
          simp only [Except.ok.injEq] at hc
          have hall : ∀ o, some o ∈ some d :: rest → o.pts.len ≠ 0 ∧ o.pts.len = d.pts.len := by
            intro o ho
            by_contra hcon
            apply h
            rw [List.any_eq_true]
            refine ⟨some o, ho, ?_⟩
            simp
            omega
          refine ⟨⟨d, rfl, hc⟩, ?_, ?_⟩
          · have := (hall d (by simp)).1; omega
          · intro o ho; rw [(hall o ho).2, hc]
        · rintro ⟨⟨d', hd, hn⟩, _, _⟩
          simp only [List.head?_cons, Option.some.injEq] at hd
          subst hd
          rw [hn]

end Nimble
