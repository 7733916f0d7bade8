import Verif.Spec
import Verif.Model.Folds
import Verif.Lemmas.Py

namespace Nimble

variable {K A : Type} [DecidableEq K]

theorem mem_firstOcc {l : List K} {x : K} : x ∈ firstOcc l ↔ x ∈ l := by
  induction l with
  | nil => simp [firstOcc]
  | cons y ys ih =>
    simp only [firstOcc, List.mem_cons, List.mem_filter, ih, decide_eq_true_eq]
    by_cases h : x = y <;> simp [h]

theorem nodup_firstOcc (l : List K) : (firstOcc l).Nodup := by
  induction l with
  | nil => simp [firstOcc]
  | cons y ys ih =>
    simp only [firstOcc, List.nodup_cons]
    exact ⟨by simp, ih.filter _⟩

theorem firstOcc_append_singleton (l : List K) (x : K) :
    firstOcc (l ++ [x]) = if x ∈ l then firstOcc l else firstOcc l ++ [x] := by
  induction l with
  | nil => simp [firstOcc]
  | cons y ys ih =>
    simp only [List.cons_append, firstOcc, ih, List.mem_cons]
    by_cases h : x = y
    · subst h
      by_cases h2 : x ∈ ys <;> simp [h2]
    · by_cases h2 : x ∈ ys <;> simp [h, h2]

theorem get?_mapKeys {B : Type} (ks : List K) (f : K → B) (k : K) :
    PyDict.get? (ks.map (fun k => (k, f k))) k = if k ∈ ks then some (f k) else none := by
  induction ks with
  | nil => simp [PyDict.get?]
  | cons y ys ih =>
    simp only [List.map_cons, PyDict.get?, ih, List.mem_cons]
    by_cases h : y = k
    · simp [h]
    · simp [h, Ne.symm h]

theorem set_mapKeys_mem {B : Type} {ks : List K} (hn : ks.Nodup) (f : K → B) {k : K} (hk : k ∈ ks) (v : B) :
    PyDict.set (ks.map (fun k => (k, f k))) k v =
      ks.map (fun k' => (k', if k' = k then v else f k')) := by
  induction ks with
  | nil => simp at hk
  | cons y ys ih =>
    simp only [List.map_cons, PyDict.set]
    rw [List.nodup_cons] at hn
    by_cases h : y = k
    · subst h
      simp only [if_true, List.cons.injEq, true_and]
      apply List.map_congr_left
      intro a ha
      rw [if_neg (fun (e : a = y) => hn.1 (e ▸ ha))]
    · simp only [if_neg h, List.cons.injEq, true_and]
      exact ih hn.2 ((List.mem_cons.1 hk).resolve_left (Ne.symm h))

theorem set_mapKeys_notMem {B : Type} {ks : List K} (f : K → B) {k : K} (hk : k ∉ ks) (v : B) :
    PyDict.set (ks.map (fun k => (k, f k))) k v = ks.map (fun k => (k, f k)) ++ [(k, v)] := by
  induction ks with
  | nil => rfl
  | cons y ys ih =>
    simp only [List.mem_cons, not_or] at hk
    simp only [List.map_cons, PyDict.set, if_neg (Ne.symm hk.1), ih hk.2, List.cons_append]

/-- Closed form of the grouping loop: one entry per distinct key, in order of first occurrence,
holding all values of that key in order. -/
theorem groupPairs_eq (l : List (K × A)) :
    groupPairs l = (firstOcc (l.map Prod.fst)).map
      (fun k => (k, (l.filter (fun p => p.1 = k)).map Prod.snd)) := by
  induction l using List.reverseRecOn with
  | nil => rfl
  | append_singleton l p ih =>
    have : groupPairs (l ++ [p]) = pushGroup (groupPairs l) p.1 p.2 := by
      simp [groupPairs, List.foldl_append]
    rw [this, ih, List.map_append]
    simp only [List.map_cons, List.map_nil]
    rw [firstOcc_append_singleton]
    unfold pushGroup
    rw [get?_mapKeys]
    by_cases hm : p.1 ∈ l.map Prod.fst
    · rw [if_pos hm, if_pos (mem_firstOcc.2 hm), set_mapKeys_mem (nodup_firstOcc _) _ (mem_firstOcc.2 hm)]
      apply List.map_congr_left
      intro k _
      by_cases hk : k = p.1
      · subst hk; simp [List.filter_append]
      · simp [List.filter_append, hk, Ne.symm hk]
    · rw [if_neg hm, if_neg (fun h => hm (mem_firstOcc.1 h)),
        set_mapKeys_notMem _ (fun h => hm (mem_firstOcc.1 h)), List.map_append]
      have hnil : l.filter (fun q => q.1 = p.1) = [] := by
        rw [List.filter_eq_nil_iff]
        intro q hq he
        simp only [decide_eq_true_eq] at he
        exact hm (List.mem_map.2 ⟨q, hq, he⟩)
      congr 1
      · apply List.map_congr_left
        intro k hk
        have hne : p.1 ≠ k := fun e => hm (mem_firstOcc.1 (e ▸ hk))
        simp [List.filter_append, hne]
      · simp [List.filter_append, hnil]

/-- The groups together hold every value once. -/
theorem flatten_groups_perm {l : List (K × A)} {ks : List K} (hn : ks.Nodup)
    (hall : ∀ p ∈ l, p.1 ∈ ks) :
    ((ks.map (fun k => (l.filter (fun p => p.1 = k)).map Prod.snd)).flatten).Perm (l.map Prod.snd) := by
  induction ks generalizing l with
  | nil =>
    cases l with
    | nil => simp
    | cons p ps => exact absurd (hall p (by simp)) (by simp)
  | cons k ks ih =>
    rw [List.nodup_cons] at hn
    simp only [List.map_cons, List.flatten_cons]
    have h1 : (ks.map (fun k' => (l.filter (fun p => p.1 = k')).map Prod.snd)) =
        ks.map (fun k' => ((l.filter (fun p => ¬ p.1 = k)).filter (fun p => p.1 = k')).map Prod.snd) := by
      apply List.map_congr_left
      intro k' hk'
      rw [List.filter_filter]
      congr 1
      apply List.filter_congr
      intro p _
      by_cases h : p.1 = k'
      · have : p.1 ≠ k := fun e => hn.1 (by rw [← e, h]; exact hk')
        simp [h]
        exact fun e => this (h.trans e)
      · simp [h]
    rw [h1]
    have h2 := ih (l := l.filter (fun p => ¬ p.1 = k)) hn.2 (by
      intro p hp
      rw [List.mem_filter] at hp
      exact (List.mem_cons.1 (hall p hp.1)).resolve_left (by simpa using hp.2))
    have h3 : ((l.filter (fun p => p.1 = k)) ++ (l.filter (fun p => ¬ p.1 = k))).Perm l := by
      have := List.filter_append_perm (fun p : K × A => decide (p.1 = k)) l
      simpa using this
    have h4 := h3.map Prod.snd
    rw [List.map_append] at h4
    exact (h2.append_left _).trans h4

end Nimble
