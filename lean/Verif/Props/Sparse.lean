import Verif.Props.SparseOps
import Mathlib.Data.List.ProdSigma

/-!
# C18: assignment, comparison, counting, views and histories of the `Sparse` representation
-/

namespace Nimble
namespace Sp
variable {V : Type}
namespace Coo
variable [Zero V]

/-! ## Assignment -/

/-- A table with one element replaced. -/
def setAt (t : List (List V)) (x y : Nat) (v : V) : List (List V) := t.modify x (fun r => r.set y v)

omit [Zero V] in
theorem getElem_setAt (t : List (List V)) (x y : Nat) (v : V) (i j : Nat) :
    ((setAt t x y v)[i]?).bind (·[j]?)
      = if (i, j) = (x, y) then ((t[i]?).bind (·[j]?)).map (fun _ => v) else (t[i]?).bind (·[j]?) := by
  unfold setAt
  rw [List.getElem?_modify]
  by_cases hi : x = i
  · subst hi
    simp only [if_true, Option.map_eq_map]
    cases h : t[x]? with
    | none => simp
    | some r =>
      simp only [Option.map_some, Option.bind_some, List.getElem?_set]
      by_cases hj : y = j
      · subst hj
        by_cases hl : y < r.length
        · simp [hl]
        · simp [hl]
      · simp [hj, Ne.symm hj]
  · simp [hi, Ne.symm hi]

/-- From elements to tables, for an assignment. -/
theorem dense_setAt {c d : Coo V} (hr : d.rows = c.rows) (hk : d.cols = c.cols) {x y : Nat} {v : V}
    (hxy : d.at x y = v) (h : ∀ i j, (i, j) ≠ (x, y) → d.at i j = c.at i j) :
    d.dense = setAt c.dense x y v := by
  refine dense_ext ?_ ?_ ?_
  · simp [setAt, length_dense, hr]
  · intro r hrm
    unfold setAt at hrm
    obtain ⟨k, hkk⟩ := List.mem_iff_getElem?.1 hrm
    rw [List.getElem?_modify] at hkk
    cases h' : c.dense[k]? with
    | none => rw [h'] at hkk; simp at hkk
    | some r0 =>
      rw [h'] at hkk
      have := row_dense (List.mem_of_getElem? h')
      simp only [Option.map_eq_map, Option.map_some, Option.some.injEq] at hkk
      rw [← hkk, hk, ← this]
      split <;> simp
  · intro i j hi hj
    rw [getElem_setAt, at_dense c (by omega) (by omega)]
    by_cases hh : (i, j) = (x, y)
    · rw [if_pos hh]
      simp only [Prod.mk.injEq] at hh
      obtain ⟨rfl, rfl⟩ := hh
      simp [hxy]
    · rw [if_neg hh, h i j hh]

/-- Assigning to an element changes exactly this element, whatever the internal order and whether or
not the old and the new value are zero. -/
theorem C18_setitem [DecidableEq V] {c : Coo V} (h : c.WF) {x y : Nat} (hx : x < c.rows)
    (hy : y < c.cols) (value : V) :
    (c.setitem x y value).2 = .ok () ∧ (c.setitem x y value).1.WF ∧
    (c.setitem x y value).1.rows = c.rows ∧ (c.setitem x y value).1.cols = c.cols ∧
    (c.setitem x y value).1.dense = setAt c.dense x y value := by
  have hs := sortInternal_spec h.toCore c.accessAxis true false (fun _ => h)
  have hi := sortInternal_indices h.toCore c.accessAxis false (fun _ => h)
  obtain ⟨c1, hc1⟩ : ∃ c1, c1 = c.sortInternal c.accessAxis true := ⟨_, rfl⟩
  rw [← hc1] at hs hi
  have hx1 : x < c1.rows := by rw [hs.rows]; exact hx
  have hy1 : y < c1.cols := by rw [hs.cols]; exact hy
  obtain ⟨r, hr, r1, r2⟩ := locate_spec hs.wf hs.sorted hi hx1 hy1
  have hd := hs.dense h.nodup
  unfold setitem
  dsimp only
  rw [← hc1, hr, ← hd, ← hs.rows, ← hs.cols]
  generalize c.accessAxis = ax at *
  clear hc1 hd
  have hw := hs.wf
  have hsorted := hs.sorted
  clear hs
  cases r with
  | none =>
    have hno := r2 rfl
    by_cases hv : value ≠ 0
    · dsimp only
      rw [if_pos hv]
      obtain ⟨d, hd⟩ : ∃ d : Coo V, d = { c1 with ents := c1.ents ++ [⟨x, y, value⟩] } := ⟨_, rfl⟩
      rw [← hd]
      have hmem : ∀ e : Ent V, e ∈ d.ents ↔ e ∈ c1.ents ∨ e = ⟨x, y, value⟩ := by
        intro e; rw [hd]; simp
      have hdr : d.rows = c1.rows := by rw [hd]
      have hdc : d.cols = c1.cols := by rw [hd]
      have hcore : d.Core := by
        refine ⟨?_, ?_, ?_, ?_⟩
        · rw [hd]
          simp only [List.map_append, List.map_cons, List.map_nil]
          rw [List.nodup_append]
          refine ⟨hw.nodup, by simp, ?_⟩
          intro a ha b hb hab
          obtain ⟨e, he, rfl⟩ := List.mem_map.1 ha
          simp only [List.mem_singleton] at hb
          exact hno e he (by rw [hab, hb]; rfl)
        · intro e he
          rcases (hmem e).1 he with h1 | h1
          · rw [hdr]; exact hw.row_lt e h1
          · subst h1; rw [hdr]; exact hx1
        · intro e he
          rcases (hmem e).1 he with h1 | h1
          · rw [hdc]; exact hw.col_lt e h1
          · subst h1; rw [hdc]; exact hy1
        · intro e he
          rcases (hmem e).1 he with h1 | h1
          · exact hw.nonzero e h1
          · subst h1; exact hv
      have hs2 := sortInternal_spec hcore ax true true (by intro hh; cases hh)
      refine ⟨rfl, hs2.wf, by rw [hs2.rows, hdr], by rw [hs2.cols, hdc], ?_⟩
      rw [hs2.dense hcore.nodup]
      refine dense_setAt hdr hdc ?_ ?_
      · exact at_of_mem (c := d) (e := ⟨x, y, value⟩) hcore.nodup ((hmem _).2 (Or.inr rfl))
      · intro i j hij
        refine at_eq hcore.nodup hw.nodup (fun v => ?_)
        rw [hmem]
        constructor
        · rintro (h1 | h1)
          · exact h1
          · simp only [Ent.mk.injEq] at h1
            exact absurd (by rw [h1.1, h1.2.1]) hij
        · exact Or.inl
    · dsimp only
      rw [if_neg hv]
      refine ⟨rfl, hw, rfl, rfl, ?_⟩
      have hv0 : value = 0 := by simpa using hv
      exact dense_setAt rfl rfl (by rw [at_of_not hno, hv0]) (fun _ _ _ => rfl)
  | some k =>
    obtain ⟨e0, he0, hp0⟩ := r1 k rfl
    have hp0' : e0.row = x ∧ e0.col = y := by simpa [Ent.pos] using hp0
    have huniq : ∀ k' e, c1.ents[k']? = some e → e.pos = (x, y) → k' = k := by
      intro k' e hk' hpe
      have h1 : (c1.ents.map Ent.pos)[k']? = some (x, y) := by simp [hk', hpe]
      have h2 : (c1.ents.map Ent.pos)[k]? = some (x, y) := by simp [he0, hp0]
      have hlt : k' < (c1.ents.map Ent.pos).length := (List.getElem?_eq_some_iff.1 h1).1
      exact (List.getElem?_inj hlt hw.nodup).1 (h1.trans h2.symm)
    by_cases hv : value ≠ 0
    · dsimp only
      rw [if_pos hv]
      obtain ⟨d, hd⟩ : ∃ d : Coo V, d = { c1 with
        ents := c1.ents.modify k (fun e => { e with val := value }) } := ⟨_, rfl⟩
      rw [← hd]
      have hdr : d.rows = c1.rows := by rw [hd]
      have hdc : d.cols = c1.cols := by rw [hd]
      have hmap : ∀ {B : Type} (f : Ent V → B), (∀ e : Ent V, f { e with val := value } = f e) →
          d.ents.map f = c1.ents.map f := by
        intro B f hf
        rw [hd]
        apply List.ext_getElem?
        intro q
        simp only [List.getElem?_map, List.getElem?_modify]
        cases c1.ents[q]? with
        | none => rfl
        | some e =>
          simp only [Option.map_eq_map, Option.map_some]
          split
          · rw [hf]
          · rfl
      have hmem : ∀ e : Ent V, e ∈ d.ents → (∃ e' ∈ c1.ents, e'.pos = e.pos) ∧
          (e.val = value ∨ e ∈ c1.ents) := by
        intro e he
        obtain ⟨q, hq⟩ := List.mem_iff_getElem?.1 he
        rw [hd] at hq
        simp only [List.getElem?_modify] at hq
        cases hc : c1.ents[q]? with
        | none => rw [hc] at hq; simp at hq
        | some e' =>
          rw [hc] at hq
          simp only [Option.map_eq_map, Option.map_some, Option.some.injEq] at hq
          have hm := List.mem_of_getElem? hc
          split at hq
          · subst hq; exact ⟨⟨e', hm, rfl⟩, Or.inl rfl⟩
          · subst hq; exact ⟨⟨_, hm, rfl⟩, Or.inr hm⟩
      have hcore : d.Core := by
        refine ⟨?_, ?_, ?_, ?_⟩
        · rw [hmap Ent.pos (fun _ => rfl)]; exact hw.nodup
        · intro e he
          obtain ⟨⟨e', hm, hp⟩, -⟩ := hmem e he
          simp only [Ent.pos, Prod.mk.injEq] at hp
          rw [hdr, ← hp.1]; exact hw.row_lt e' hm
        · intro e he
          obtain ⟨⟨e', hm, hp⟩, -⟩ := hmem e he
          simp only [Ent.pos, Prod.mk.injEq] at hp
          rw [hdc, ← hp.2]; exact hw.col_lt e' hm
        · intro e he
          rcases (hmem e he).2 with h1 | h1
          · rw [h1]; exact hv
          · exact hw.nonzero e h1
      have hset : (⟨x, y, value⟩ : Ent V) ∈ d.ents := by
        rw [hd]
        apply List.mem_of_getElem? (i := k)
        rw [List.getElem?_modify, he0]
        simp [← hp0'.1, ← hp0'.2]
      refine ⟨rfl, ⟨hcore, ?_, ?_⟩, hdr, hdc, ?_⟩
      · intro a ha
        have ha' : c1.sorted = some a := by rw [hd] at ha; exact ha
        have h1 := hw.sorted_ok a ha'
        have h2 : (c1.ents.map (fun e => (e.on a, e.on a.off))).Pairwise
            (fun p q => (decide (p.1 < q.1) || (decide (p.1 = q.1) && decide (p.2 ≤ q.2))) = true) := by
          rw [List.pairwise_map]; exact h1
        rw [← hmap (fun e => (e.on a, e.on a.off)) (fun e => by cases a <;> rfl), List.pairwise_map] at h2
        exact h2
      · intro l hl
        have hl' : c1.indices = some l := by rw [hd] at hl; exact hl
        obtain ⟨a, ha, hla⟩ := hw.indices_ok l hl'
        refine ⟨a, by rw [hd]; exact ha, ?_⟩
        rw [hmap (Ent.on a) (fun e => by cases a <;> rfl), hla]
        have : d.size a = c1.size a := by cases a; exact hdr; exact hdc
        rw [this]
      · refine dense_setAt hdr hdc ?_ ?_
        · exact at_of_mem hcore.nodup hset
        · intro i j hij
          refine at_eq hcore.nodup hw.nodup (fun v => ?_)
          rw [hd]
          simp only [List.mem_iff_getElem?, List.getElem?_modify]
          constructor
          · rintro ⟨q, hq⟩
            cases hc : c1.ents[q]? with
            | none => rw [hc] at hq; simp at hq
            | some e' =>
              rw [hc] at hq
              simp only [Option.map_eq_map, Option.map_some, Option.some.injEq] at hq
              split at hq
              · next hkq =>
                subst hkq
                rw [he0] at hc
                cases hc
                simp only [Ent.mk.injEq] at hq
                exact absurd (by rw [← hq.1, ← hq.2.1, hp0'.1, hp0'.2]) hij
              · subst hq; exact ⟨q, hc⟩
          · rintro ⟨q, hq⟩
            refine ⟨q, ?_⟩
            rw [hq]
            have : k ≠ q := by
              rintro rfl
              rw [he0] at hq
              cases hq
              exact hij (by simpa [Ent.pos] using hp0)
            simp [this]
    · have hv0 : value = 0 := by simpa using hv
      dsimp only
      rw [if_neg hv]
      obtain ⟨d, hd⟩ : ∃ d : Coo V, d = { c1 with ents := c1.ents.eraseIdx k } := ⟨_, rfl⟩
      rw [← hd]
      have hdr : d.rows = c1.rows := by rw [hd]
      have hdc : d.cols = c1.cols := by rw [hd]
      have hsub : d.ents.Sublist c1.ents := by rw [hd]; exact List.eraseIdx_sublist _ _
      have hcore : d.Core := by
        refine ⟨hw.nodup.sublist (hsub.map _), ?_, ?_, ?_⟩
        · intro e he; rw [hdr]; exact hw.row_lt e (hsub.subset he)
        · intro e he; rw [hdc]; exact hw.col_lt e (hsub.subset he)
        · intro e he; exact hw.nonzero e (hsub.subset he)
      have hmem : ∀ e : Ent V, e ∈ d.ents ↔ e ∈ c1.ents ∧ e.pos ≠ (x, y) := by
        intro e
        rw [hd]
        show e ∈ c1.ents.eraseIdx k ↔ _
        rw [List.mem_eraseIdx_iff_getElem?]
        constructor
        · rintro ⟨q, hq, hqe⟩
          exact ⟨List.mem_of_getElem? hqe, fun hp => hq (huniq q e hqe hp)⟩
        · rintro ⟨hm, hp⟩
          obtain ⟨q, hq⟩ := List.mem_iff_getElem?.1 hm
          refine ⟨q, ?_, hq⟩
          rintro rfl
          rw [he0] at hq
          cases hq
          exact hp hp0
      have hs2 := sortInternal_spec hcore ax true true (by intro hh; cases hh)
      refine ⟨rfl, hs2.wf, by rw [hs2.rows, hdr], by rw [hs2.cols, hdc], ?_⟩
      rw [hs2.dense hcore.nodup]
      refine dense_setAt hdr hdc ?_ ?_
      · rw [hv0]
        exact at_of_not (fun e he => ((hmem e).1 he).2)
      · intro i j hij
        refine at_eq hcore.nodup hw.nodup (fun v => ?_)
        rw [hmem]
        exact ⟨fun hh => hh.1, fun hh => ⟨hh, by simpa [Ent.pos] using hij⟩⟩

/-! ## Creation -/

/-- Creating a `Sparse` object from a table and reading it gives the table. -/
theorem C18_ofDense [DecidableEq V] {ncol : Nat} {data : List (List V)}
    (hrect : ∀ r ∈ data, r.length = ncol) :
    (ofDense ncol data).WF ∧ (ofDense ncol data).dense = data := by
  have hmem : ∀ i j v, (⟨i, j, v⟩ : Ent V) ∈ (ofDense ncol data).ents ↔
      (data[i]?).bind (·[j]?) = some v ∧ v ≠ 0 := by
    intro i j v
    simp only [ofDense, List.mem_flatMap, List.mem_filterMap, Prod.exists,
      List.mk_mem_zipIdx_iff_getElem?]
    constructor
    · rintro ⟨r, i', hr, w, j', hw, heq⟩
      split at heq
      · cases heq
      · next hne =>
        simp only [Option.some.injEq, Ent.mk.injEq] at heq
        obtain ⟨rfl, rfl, rfl⟩ := heq
        exact ⟨by rw [hr]; exact hw, hne⟩
    · rintro ⟨h1, h2⟩
      cases hr : data[i]? with
      | none => rw [hr] at h1; cases h1
      | some r =>
        rw [hr] at h1
        exact ⟨r, i, hr, v, j, h1, by simp [h2]⟩
  have hnd : ((ofDense ncol data).ents.map Ent.pos).Nodup := by
    show (List.map Ent.pos (data.zipIdx.flatMap _)).Nodup
    rw [List.map_flatMap, List.nodup_flatMap]
    constructor
    · rintro ⟨r, i⟩ _
      rw [List.map_filterMap]
      have hz : (r.zipIdx.map Prod.snd).Nodup := by
        rw [List.zipIdx_map_snd]; exact List.nodup_range'
      have hp : r.zipIdx.Pairwise (fun a b => a.2 ≠ b.2) := List.pairwise_map.1 hz
      refine List.Pairwise.filterMap _ ?_ hp
      rintro ⟨v, j⟩ ⟨v', j'⟩ hne b hb b' hb'
      simp only [Option.map_eq_some_iff] at hb hb'
      obtain ⟨e, he, rfl⟩ := hb
      obtain ⟨e', he', rfl⟩ := hb'
      split at he
      · cases he
      · split at he'
        · cases he'
        · cases he
          cases he'
          simp only [Ent.pos, ne_eq, Prod.mk.injEq, true_and]
          exact hne
    · have hz : (data.zipIdx.map Prod.snd).Nodup := by
        rw [List.zipIdx_map_snd]; exact List.nodup_range'
      have hp : data.zipIdx.Pairwise (fun a b => a.2 ≠ b.2) := List.pairwise_map.1 hz
      refine hp.imp ?_
      rintro ⟨r, i⟩ ⟨r', i'⟩ hne x hx hx'
      simp only [List.mem_map, List.mem_filterMap] at hx hx'
      obtain ⟨e, ⟨q, -, hq⟩, rfl⟩ := hx
      obtain ⟨e', ⟨q', -, hq'⟩, heq⟩ := hx'
      split at hq
      · cases hq
      · split at hq'
        · cases hq'
        · cases hq
          cases hq'
          simp only [Ent.pos, Prod.mk.injEq] at heq
          exact hne heq.1.symm
  have hin : ∀ e ∈ (ofDense ncol data).ents, e.row < data.length ∧ e.col < ncol ∧ e.val ≠ 0 := by
    rintro ⟨i, j, v⟩ he
    obtain ⟨h1, h2⟩ := (hmem i j v).1 he
    cases hr : data[i]? with
    | none => rw [hr] at h1; cases h1
    | some r =>
      rw [hr] at h1
      refine ⟨(List.getElem?_eq_some_iff.1 hr).1, ?_, h2⟩
      rw [← hrect r (List.mem_of_getElem? hr)]
      exact (List.getElem?_eq_some_iff.1 h1).1
  have hcore : (ofDense ncol data).Core :=
    ⟨hnd, fun e he => (hin e he).1, fun e he => (hin e he).2.1, fun e he => (hin e he).2.2⟩
  refine ⟨hcore.wf rfl rfl, ?_⟩
  refine dense_ext rfl hrect ?_
  intro i j hi hj
  have hi' : i < data.length := hi
  have hj' : j < (data[i]).length := by rw [hrect _ (List.getElem_mem _)]; exact hj
  rw [List.getElem?_eq_getElem hi', Option.bind_some, List.getElem?_eq_getElem hj']
  congr 1
  by_cases hz : data[i][j] = 0
  · rw [hz, at_of_not]
    rintro ⟨a, b, v⟩ he hp
    simp only [Ent.pos, Prod.mk.injEq] at hp
    obtain ⟨rfl, rfl⟩ := hp
    obtain ⟨h1, h2⟩ := (hmem a b v).1 he
    rw [List.getElem?_eq_getElem hi', Option.bind_some, List.getElem?_eq_getElem hj', hz] at h1
    exact h2 (Option.some.inj h1).symm
  · have := (hmem i j data[i][j]).2 ⟨by
      rw [List.getElem?_eq_getElem hi', Option.bind_some, List.getElem?_eq_getElem hj'], hz⟩
    exact (at_of_mem (e := ⟨i, j, data[i][j]⟩) hnd this).symm

end Coo
end Sp
end Nimble
