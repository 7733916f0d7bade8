import Verif.Model.Similarities
import Verif.Props.MetricsReal
import Verif.Props.AxisStats
import Verif.Props.History
import Verif.Props.MatMul
import Mathlib.Tactic.Linarith
import Mathlib.Tactic.FieldSimp
import Mathlib.Tactic.Ring
import Mathlib.Tactic.NormNum
import Mathlib.Algebra.BigOperators.Fin
import Mathlib.Algebra.BigOperators.Ring.Finset
import Mathlib.Algebra.Order.BigOperators.Group.Finset
import Mathlib.Algebra.BigOperators.Field

/-!
# C106: similarities of points and features
-/

namespace Nimble
namespace Similarities
open Confidence (known)

/-! ## Specification -/

/-- The pairs of values at the same position of two vectors, where both values are known. -/
def bothKnown (u v : List (Option ℝ)) : List (ℝ × ℝ) :=
  (u.zip v).filterMap (fun p => p.1.bind (fun a => p.2.map (fun b => (a, b))))

/-- The average of a quantity over the pairs. -/
noncomputable def average (f : ℝ × ℝ → ℝ) (ps : List (ℝ × ℝ)) : ℝ := (ps.map f).sum / ps.length

/-- The sum of the products of the distances from the averages. -/
noncomputable def coSum (f g : ℝ × ℝ → ℝ) (ps : List (ℝ × ℝ)) : ℝ :=
  (ps.map (fun p => (f p - average f ps) * (g p - average g ps))).sum

/-- The textbook formulas for Pearson's correlation and the two covariances; `none` if they are undefined. -/
noncomputable def formula : Kind → List (ℝ × ℝ) → Option ℝ
  | .correlation, ps =>
    if coSum Prod.fst Prod.fst ps * coSum Prod.snd Prod.snd ps = 0 then none
    else some (coSum Prod.fst Prod.snd ps /
      Real.sqrt (coSum Prod.fst Prod.fst ps * coSum Prod.snd Prod.snd ps))
  | .sampleCovariance, ps =>
    if ps.length ≤ 1 then none else some (coSum Prod.fst Prod.snd ps / (ps.length - 1))
  | .populationCovariance, ps =>
    if ps.length = 0 then none else some (coSum Prod.fst Prod.snd ps / ps.length)
  | .dotProduct, ps => some ((ps.map (fun p => p.1 * p.2)).sum)

/-- `r` has a row and a column for every point (feature) of `o`, both under its name, and the entry for
two of them is computed from the positions where both are known. -/
structure IsSimilarity (k : Kind) (o : Obj (Option ℝ)) (ax : Ax) (r : Obj (Option ℝ)) : Prop where
  wf : r.WF
  points : r.pts.len = (o.axis ax).len
  features : r.fts.len = (o.axis ax).len
  pointNames : r.pts.getNames = (o.axis ax).getNames
  featureNames : r.fts.getNames = (o.axis ax).getNames
  entry : ∀ i j, i < (o.axis ax).len → j < (o.axis ax).len →
    r.elem? i j = some (formula k (bothKnown (o.vector ax i) (o.vector ax j)))

/-- The names of the documentation. -/
def meaning : List (String × Kind) :=
  [("correlation", .correlation), ("covariance", .sampleCovariance), ("sample covariance", .sampleCovariance),
    ("population covariance", .populationCovariance), ("dot product", .dotProduct)]

/-! ## Lemmas -/

theorem used_eq : ∀ u v : List (Option ℝ), used u v = bothKnown u v
  | [], v => by simp [used, bothKnown]
  | a :: u, [] => by cases a <;> simp [used, bothKnown]
  | none :: u, b :: v => by
    have := used_eq u v
    simp only [bothKnown] at this
    cases b <;> simp [used, bothKnown, this]
  | some a :: u, none :: v => by
    have := used_eq u v
    simp only [bothKnown] at this
    simp [used, bothKnown, this]
  | some a :: u, some b :: v => by
    have := used_eq u v
    simp only [bothKnown] at this
    simp [used, bothKnown, this]

theorem bothKnown_swap : ∀ u v : List (Option ℝ), bothKnown v u = (bothKnown u v).map Prod.swap
  | [], v => by simp [bothKnown]
  | a :: u, [] => by simp [bothKnown]
  | a :: u, b :: v => by
    have := bothKnown_swap u v
    simp only [bothKnown] at this
    cases a <;> cases b <;> simp [bothKnown, this]

theorem complete_pairs : ∀ {u v : List (Option ℝ)}, u.length = v.length → (∀ x ∈ u, x.isSome) →
    (∀ x ∈ v, x.isSome) → (bothKnown u v).map Prod.fst = known u ∧ (bothKnown u v).map Prod.snd = known v ∧
      (bothKnown u v).length = u.length
  | [], [], _, _, _ => by simp [bothKnown, known]
  | [], _ :: _, h, _, _ => by simp at h
  | _ :: _, [], h, _, _ => by simp at h
  | a :: u, b :: v, h, hu, hv => by
    have := complete_pairs (u := u) (v := v) (by simpa using h) (fun x hx => hu x (by simp [hx]))
      (fun x hx => hv x (by simp [hx]))
    obtain ⟨a, rfl⟩ := Option.isSome_iff_exists.1 (hu a (by simp))
    obtain ⟨b, rfl⟩ := Option.isSome_iff_exists.1 (hv b (by simp))
    simp only [bothKnown, known] at this ⊢
    simp [this.1, this.2.1, this.2.2]

theorem dot_centred (ps : List (ℝ × ℝ)) (m n : ℝ) :
    dotList (centred (ps.map Prod.fst) m) (centred (ps.map Prod.snd) n) =
      (ps.map (fun p => (p.1 - m) * (p.2 - n))).sum := by
  unfold dotList centred
  induction ps with
  | nil => rfl
  | cons p ps ih => simpa using ih

theorem dot_coSum (ps : List (ℝ × ℝ)) :
    dotList (centred (ps.map Prod.fst) (mean (ps.map Prod.fst)))
      (centred (ps.map Prod.snd) (mean (ps.map Prod.snd))) = coSum Prod.fst Prod.snd ps := by
  rw [dot_centred]
  simp [coSum, average, mean]

theorem coSum_self_nonneg (f : ℝ × ℝ → ℝ) (ps : List (ℝ × ℝ)) : 0 ≤ coSum f f ps := by
  unfold coSum
  exact sum_nonneg' (fun p => (f p - average f ps) * (f p - average f ps)) (fun p => mul_self_nonneg _) ps

theorem var_fst (f : ℝ × ℝ → ℝ) (ps : List (ℝ × ℝ)) :
    populationVariance (ps.map f) = coSum f f ps / ps.length := by
  simp [populationVariance, coSum, average, List.map_map, Function.comp_def, sq]

theorem std_mul (ps : List (ℝ × ℝ)) (hn : ps.length ≠ 0) :
    std (ps.map Prod.fst) * std (ps.map Prod.snd) =
      Real.sqrt (coSum Prod.fst Prod.fst ps * coSum Prod.snd Prod.snd ps) / ps.length := by
  have hp : (0 : ℝ) < ps.length := by exact_mod_cast Nat.pos_of_ne_zero hn
  unfold std
  rw [var_fst, var_fst, Real.sqrt_div (coSum_self_nonneg _ _), Real.sqrt_div (coSum_self_nonneg _ _),
    Real.sqrt_mul (coSum_self_nonneg _ _), div_mul_div_comm, Real.mul_self_sqrt hp.le]

/-- The flags of the functions. -/
def flags : Kind → Bool × Bool
  | .correlation => (false, true)
  | .sampleCovariance => (true, false)
  | .populationCovariance => (false, false)
  | .dotProduct => (false, false)

theorem divCorr_formula {k : Kind} (hk : k ≠ .dotProduct) {ps : List (ℝ × ℝ)} (hn : ps.length ≠ 0) :
    divCorr (flags k).2 (npDiv (coSum Prod.fst Prod.snd ps)
      (if (flags k).1 then (ps.length : ℝ) - 1 else (ps.length : ℝ)))
      (std (ps.map Prod.fst) * std (ps.map Prod.snd)) = formula k ps := by
  have hp : (0 : ℝ) < ps.length := by exact_mod_cast Nat.pos_of_ne_zero hn
  cases k with
  | dotProduct => exact absurd rfl hk
  | correlation =>
    have hne : (ps.length : ℝ) ≠ 0 := hp.ne'
    simp only [flags, divCorr, npDiv, if_true, Bool.false_eq_true, if_false, hne, Option.bind_some, formula]
    rw [std_mul ps hn]
    have h0 := mul_nonneg (coSum_self_nonneg Prod.fst ps) (coSum_self_nonneg Prod.snd ps)
    by_cases hz : coSum Prod.fst Prod.fst ps * coSum Prod.snd Prod.snd ps = 0
    · simp [hz]
    · have hs : Real.sqrt (coSum Prod.fst Prod.fst ps * coSum Prod.snd Prod.snd ps) ≠ 0 := by
        rw [Ne, Real.sqrt_eq_zero h0]; exact hz
      rw [if_neg (div_ne_zero hs hne), if_neg hz, div_div_div_cancel_right₀ hne]
  | sampleCovariance =>
    simp only [flags, divCorr, npDiv, if_true, Bool.false_eq_true, if_false, formula]
    by_cases h1 : ps.length = 1
    · simp [h1]
    · have : (ps.length : ℝ) - 1 ≠ 0 := by
        rw [sub_ne_zero]; exact_mod_cast h1
      rw [if_neg this, if_neg (by omega)]
  | populationCovariance =>
    simp only [flags, divCorr, npDiv, Bool.false_eq_true, if_false, formula, hp.ne', hn]

theorem completeEntry_formula {k : Kind} (hk : k ≠ .dotProduct) {u v : List (Option ℝ)}
    (hl : u.length = v.length) (hn : u.length ≠ 0) (hu : ∀ x ∈ u, x.isSome) (hv : ∀ x ∈ v, x.isSome) :
    completeEntry (flags k).1 (flags k).2 (known u) (known v) (known v) = formula k (bothKnown u v) := by
  obtain ⟨h1, h2, h3⟩ := complete_pairs hl hu hv
  have hk' : ((known u).length : ℝ) = ((bothKnown u v).length : ℝ) := by
    rw [← h1, List.length_map]
  rw [← divCorr_formula hk (ps := bothKnown u v) (by omega), ← dot_coSum, h1, h2, ← hk']
  rfl

theorem missingEntry_formula {k : Kind} (hk : k ≠ .dotProduct) (u v : List (Option ℝ)) :
    missingEntry (flags k).1 (flags k).2 u v = formula k (bothKnown u v) := by
  unfold missingEntry
  rw [used_eq]
  by_cases hn : bothKnown u v = []
  · rw [hn]
    cases k <;> simp_all [formula, coSum]
  · have hn' : (bothKnown u v).length ≠ 0 := by simpa using hn
    have hp : 0 < (bothKnown u v).length := Nat.pos_of_ne_zero hn'
    rw [← divCorr_formula hk hn']
    simp only [hn, if_false, dot_coSum]
    congr 1
    unfold npDiv
    simp only [List.length_map]
    cases (flags k).1 with
    | false => simp [hn']
    | true =>
      simp only [if_true]
      by_cases h1 : (bothKnown u v).length = 1
      · simp [h1]
      · have h2 : ((bothKnown u v).length : ℝ) - 1 ≠ 0 := by rw [sub_ne_zero]; exact_mod_cast h1
        rw [if_pos (by omega), if_neg h2, Nat.cast_sub (by omega)]
        simp

theorem coSum_swap (f g : ℝ × ℝ → ℝ) (ps : List (ℝ × ℝ)) :
    coSum f g (ps.map Prod.swap) = coSum (f ∘ Prod.swap) (g ∘ Prod.swap) ps := by
  simp [coSum, average, List.map_map, Function.comp_def]

theorem coSum_comm (f g : ℝ × ℝ → ℝ) (ps : List (ℝ × ℝ)) : coSum f g ps = coSum g f ps := by
  simp [coSum, mul_comm]

theorem formula_swap (k : Kind) (ps : List (ℝ × ℝ)) : formula k (ps.map Prod.swap) = formula k ps := by
  have e1 : (Prod.fst ∘ Prod.swap : ℝ × ℝ → ℝ) = Prod.snd := rfl
  have e2 : (Prod.snd ∘ Prod.swap : ℝ × ℝ → ℝ) = Prod.fst := rfl
  cases k <;> simp only [formula, coSum_swap, e1, e2, List.length_map]
  · rw [coSum_comm Prod.snd Prod.fst, mul_comm (coSum Prod.snd Prod.snd ps)]
  · rw [coSum_comm Prod.snd Prod.fst]
  · rw [coSum_comm Prod.snd Prod.fst]
  · simp [List.map_map, Function.comp_def, mul_comm]

theorem vector_eq_of_elem {o q : Obj (Option ℝ)} : o.data = q.data → ∀ ax i, o.vector ax i = q.vector ax i := by
  intro h ax i
  cases ax <;> simp [Obj.vector, h]

/-- The vectors of a transposed object. -/
theorem transposed_vectors {V : Type} {o : Obj V} (h : o.WF) : ∃ t, o.transpose = .ok t ∧ t.WF ∧
    t.pts.len = o.fts.len ∧ t.fts.len = o.pts.len ∧ t.pts.getNames = o.fts.getNames ∧
    t.fts.getNames = o.pts.getNames ∧
    (∀ j, j < o.fts.len → t.vector .point j = o.vector .feature j) ∧
    (∀ i, i < o.pts.len → t.vector .feature i = o.vector .point i) := by
  obtain ⟨t, h1, h2, h3, h4, h5, h6, h7⟩ := transpose_spec h
  obtain ⟨t', q, g1, g2, g3⟩ := C13_transpose_involution h
  have : t' = t := Except.ok.inj (g1.symm.trans h1)
  subst this
  obtain ⟨q', k1, k2, k3, -⟩ := transpose_spec h2
  have : q' = q := Except.ok.inj (k1.symm.trans g2)
  subst this
  refine ⟨t', h1, h2, h4, h5, h6, h7, ?_, ?_⟩
  · intro j hj
    simp [Obj.vector, h3, Obj.transposeData, hj]
  · intro i hi
    have hd : o.data = Obj.transposeData t'.fts.len t'.data := by rw [← k3]; exact g3.2.2.1.symm
    show t'.data.filterMap (·[i]?) = (o.data[i]?).getD []
    rw [hd]
    simp [Obj.transposeData, h5, hi]

theorem nanCovCorr_spec {k : Kind} (hk : k ≠ .dotProduct) {X XT : Obj (Option ℝ)} (hX : X.WF)
    (hf : 0 < X.fts.len) (hv : ∀ j, j < X.pts.len → XT.vector .feature j = X.vector .point j) :
    ∃ r, nanCovCorr X XT (flags k).1 (flags k).2 = .ok r ∧ IsSimilarity k X .point r := by
  obtain ⟨a, a1, a2, a3, a4, -⟩ := init_same hX.pts
  have hdata : ∀ i j, i < X.pts.len → j < X.pts.len →
      ((results X XT (flags k).1 (flags k).2)[i]?).bind (·[j]?) =
        some (formula k (bothKnown (X.vector .point i) (X.vector .point j))) := by
    intro i j hi hj
    unfold results
    by_cases hc : (complete X && complete XT) = true
    · rw [if_pos hc]
      simp only [List.getElem?_map, List.getElem?_range hi, List.getElem?_range hj, Option.map_some,
        Option.bind_some, Option.some.injEq]
      rw [hv j hj]
      have hs : ∀ i, i < X.pts.len → ∀ x ∈ X.vector .point i, x.isSome := by
        intro i hi x hx
        obtain ⟨r, r1, r2, -⟩ := hX.vector_point hi
        rw [r2] at hx
        simp only [Bool.and_eq_true, complete, List.all_eq_true] at hc
        exact hc.1 r (List.mem_of_getElem? r1) x hx
      have hl : ∀ i, i < X.pts.len → (X.vector .point i).length = X.fts.len :=
        fun i hi => hX.length_vector .point hi
      exact completeEntry_formula hk (by rw [hl i hi, hl j hj]) (by rw [hl i hi]; omega) (hs i hi) (hs j hj)
    · rw [if_neg hc]
      simp only [List.getElem?_map, List.getElem?_range hi, List.getElem?_range hj, Option.map_some,
        Option.bind_some, Option.some.injEq]
      rw [missingEntry_formula hk, hv _ (by omega)]
      by_cases hij : i ≤ j
      · rw [min_eq_left hij, max_eq_right hij]
      · rw [min_eq_right (by omega), max_eq_left (by omega), bothKnown_swap, formula_swap]
  have hlen : (results X XT (flags k).1 (flags k).2).length = X.pts.len ∧
      ∀ r ∈ results X XT (flags k).1 (flags k).2, r.length = X.pts.len := by
    unfold results
    dsimp only
    split
    · exact ⟨by simp, by simp⟩
    · exact ⟨by simp, by simp⟩
  refine ⟨⟨results X XT (flags k).1 (flags k).2, a, a⟩, ?_, ⟨?_, ?_, a2, a2⟩, a3, a3, a4, a4, hdata⟩
  · unfold nanCovCorr Obj.make
    simp only [a1, bind, Except.bind, pure, Except.pure]
  · rw [a3]; exact hlen.1
  · rw [a3]; exact hlen.2

theorem call_flags (mul : Obj (Option ℝ) → Obj (Option ℝ) → Res (Obj (Option ℝ))) {k : Kind}
    (hk : k ≠ .dotProduct) (X XT : Obj (Option ℝ)) :
    call mul k X XT = nanCovCorr X XT (flags k).1 (flags k).2 := by
  cases k with
  | dotProduct => exact absurd rfl hk
  | _ => rfl

theorem kindOf_ok {name : String} {p : String × Kind} (hp : p ∈ meaning) (he : AxisStats.SameName name p.1) :
    kindOf name = .ok p.2 := by
  rw [AxisStats.sameName_iff] at he
  unfold kindOf
  rw [he]
  have h : ∀ q ∈ meaning, kindOf q.1 = .ok q.2 := by decide +kernel
  exact h p hp

/-! ## C106 -/

/-- C106. For a name which is equal to one of `meaning` up to case and whitespace, and an object whose
vectors are not of length zero, `similarities` returns the symmetric table of the textbook values of every
two points (features), whether values are missing or not.  Missing: vectors of length zero, see
`C106_empty_violated`; the dot product is `C106_dotProduct`. -/
theorem C106_similarities_partial (mul : Obj (Option ℝ) → Obj (Option ℝ) → Res (Obj (Option ℝ)))
    {o : Obj (Option ℝ)} (ho : o.WF) (ax : Ax) (hf : 0 < (o.axis ax.off).len) {name : String} {p : String × Kind}
    (hp : p ∈ meaning) (he : AxisStats.SameName name p.1) (hk : p.2 ≠ .dotProduct) :
    ∃ r, similarities mul o ax name = .ok r ∧ IsSimilarity p.2 o ax r := by
  obtain ⟨t, t1, t2, t3, t4, t5, t6, t7, t8⟩ := transposed_vectors ho
  have hs : similarities mul o ax name = callAx (call mul p.2) o t ax := by
    simp only [similarities, kindOf_ok hp he, t1, bind, Except.bind]
  cases ax with
  | point =>
    obtain ⟨r, r1, r2⟩ := nanCovCorr_spec hk ho hf (XT := t) t8
    exact ⟨r, by rw [hs]; show call mul p.2 o t = _; rw [call_flags mul hk, r1], r2⟩
  | feature =>
    obtain ⟨r, r1, r2⟩ := nanCovCorr_spec hk t2 (by rw [t4]; exact hf) (XT := o)
      (fun j hj => (t7 j (by omega)).symm)
    refine ⟨r, by rw [hs]; show call mul p.2 t o = _; rw [call_flags mul hk, r1], ?_⟩
    refine ⟨r2.wf, r2.points.trans t3, r2.features.trans t3, r2.pointNames.trans t5, r2.featureNames.trans t5, ?_⟩
    intro i j hi hj
    have := r2.entry i j (by show i < t.pts.len; rw [t3]; exact hi) (by show j < t.pts.len; rw [t3]; exact hj)
    rw [this, t7 i hi, t7 j hj]

/-- C106. All other names are refused. -/
theorem C106_names (mul : Obj (Option ℝ) → Obj (Option ℝ) → Res (Obj (Option ℝ))) (o : Obj (Option ℝ)) (ax : Ax)
    {name : String} (h : ∀ p ∈ meaning, ¬ AxisStats.SameName name p.1) :
    similarities mul o ax name = .error .InvalidArgumentValue := by
  have hv : kindOf name = .error .InvalidArgumentValue := by
    unfold kindOf
    dsimp only
    rw [if_pos]
    intro hm
    have h1 : ∀ n ∈ accepted.map AxisStats.clean, ∃ q ∈ meaning, n = AxisStats.clean q.1 := by decide +kernel
    obtain ⟨q, hq, e⟩ := h1 _ hm
    exact h q hq ((AxisStats.sameName_iff _ _).2 e)
  simp only [similarities, hv, bind, Except.bind]

/-- C106. The table is symmetric. -/
theorem C106_symmetric {k : Kind} {o r : Obj (Option ℝ)} {ax : Ax} (h : IsSimilarity k o ax r) {i j : Nat}
    (hi : i < (o.axis ax).len) (hj : j < (o.axis ax).len) : r.elem? i j = r.elem? j i := by
  rw [h.entry i j hi hj, h.entry j i hj hi, bothKnown_swap, formula_swap]

theorem coSum_cauchy (ps : List (ℝ × ℝ)) :
    coSum Prod.fst Prod.snd ps ^ 2 ≤ coSum Prod.fst Prod.fst ps * coSum Prod.snd Prod.snd ps := by
  have := cauchy_schwarz (ps.map (fun p => p.1 - average Prod.fst ps)) (ps.map (fun p => p.2 - average Prod.snd ps))
    (by simp)
  have e : dotList (ps.map (fun p => p.1 - average Prod.fst ps)) (ps.map (fun p => p.2 - average Prod.snd ps)) =
      coSum Prod.fst Prod.snd ps := by
    rw [← dot_coSum]
    simp [centred, mean, average, List.map_map, Function.comp_def]
  rw [e] at this
  simpa [coSum, List.map_map, Function.comp_def, sq] using this

/-- C106. A correlation is between -1 and 1. -/
theorem C106_correlation_range {o r : Obj (Option ℝ)} {ax : Ax} (h : IsSimilarity .correlation o ax r) {i j : Nat}
    (hi : i < (o.axis ax).len) (hj : j < (o.axis ax).len) {c : ℝ} (hc : r.elem? i j = some (some c)) :
    -1 ≤ c ∧ c ≤ 1 := by
  rw [h.entry i j hi hj, Option.some.injEq] at hc
  generalize bothKnown (o.vector ax i) (o.vector ax j) = ps at hc
  unfold formula at hc
  dsimp only at hc
  split at hc
  · cases hc
  · rename_i hz
    simp only [Option.some.injEq] at hc
    have h0 := mul_nonneg (coSum_self_nonneg Prod.fst ps) (coSum_self_nonneg Prod.snd ps)
    have hpos : 0 < Real.sqrt (coSum Prod.fst Prod.fst ps * coSum Prod.snd Prod.snd ps) :=
      Real.sqrt_pos.2 (lt_of_le_of_ne h0 (Ne.symm hz))
    have hab := Real.abs_le_sqrt (coSum_cauchy ps)
    rw [abs_le] at hab
    subst hc
    constructor
    · rw [le_div_iff₀ hpos]; linarith [hab.1]
    · rw [div_le_iff₀ hpos]; linarith [hab.2]

/-- The values of one vector paired with themselves. -/
theorem bothKnown_self : ∀ u : List (Option ℝ), bothKnown u u = (known u).map (fun x => (x, x))
  | [] => rfl
  | a :: u => by
    have := bothKnown_self u
    simp only [bothKnown, known] at this
    cases a <;> simp [bothKnown, known, this]

theorem coSum_self (l : List ℝ) (f g : ℝ × ℝ → ℝ) (hf : ∀ x, f (x, x) = x) (hg : ∀ x, g (x, x) = x) :
    coSum f g (l.map (fun x => (x, x))) = (l.map (fun x => (x - l.sum / l.length) ^ 2)).sum := by
  simp [coSum, average, List.map_map, Function.comp_def, hf, hg, sq]

/-- C106. On the diagonal a defined correlation is 1 and a defined covariance is the variance of the known
values of the point (feature). -/
theorem C106_diagonal {k : Kind} {o r : Obj (Option ℝ)} {ax : Ax} (h : IsSimilarity k o ax r) {i : Nat}
    (hi : i < (o.axis ax).len) {c : ℝ} (hc : r.elem? i i = some (some c)) :
    let l := known (o.vector ax i)
    let squares := (l.map (fun x => (x - l.sum / l.length) ^ 2)).sum
    match k with
    | .correlation => c = 1
    | .sampleCovariance => c = squares / (l.length - 1)
    | .populationCovariance => c = squares / l.length
    | .dotProduct => c = (l.map (fun x => x ^ 2)).sum := by
  rw [h.entry i i hi hi, Option.some.injEq, bothKnown_self] at hc
  dsimp only
  cases k with
  | correlation =>
    simp only [formula, coSum_self _ Prod.fst Prod.snd (fun _ => rfl) (fun _ => rfl),
      coSum_self _ Prod.fst Prod.fst (fun _ => rfl) (fun _ => rfl),
      coSum_self _ Prod.snd Prod.snd (fun _ => rfl) (fun _ => rfl)] at hc
    have h0 := sum_nonneg' (fun x => (x - (known (o.vector ax i)).sum / (known (o.vector ax i)).length) ^ 2)
      (fun x => sq_nonneg _) (known (o.vector ax i))
    split at hc
    · cases hc
    · rename_i hz
      simp only [Option.some.injEq] at hc
      subst hc
      rw [Real.sqrt_mul_self h0]
      exact div_self (fun e => hz (by rw [e, mul_zero]))
  | sampleCovariance =>
    simp only [formula, coSum_self _ Prod.fst Prod.snd (fun _ => rfl) (fun _ => rfl), List.length_map] at hc
    split at hc
    · cases hc
    · exact (Option.some.inj hc).symm
  | populationCovariance =>
    simp only [formula, coSum_self _ Prod.fst Prod.snd (fun _ => rfl) (fun _ => rfl), List.length_map] at hc
    split at hc
    · cases hc
    · exact (Option.some.inj hc).symm
  | dotProduct =>
    simp only [formula, Option.some.injEq] at hc
    subst hc
    simp [List.map_map, Function.comp_def, sq]

theorem list_sum_affine (a b : ℝ) (f : ℝ × ℝ → ℝ) (ps : List (ℝ × ℝ)) :
    (ps.map (fun p => a * f p + b)).sum = a * (ps.map f).sum + ps.length * b := by
  induction ps with
  | nil => simp
  | cons p ps ih => simp only [List.map_cons, List.sum_cons, ih, List.length_cons, Nat.cast_add, Nat.cast_one]; ring

theorem coSum_affine (a b c d : ℝ) (f g : ℝ × ℝ → ℝ) {ps : List (ℝ × ℝ)} :
    coSum (fun p => a * f p + b) (fun p => c * g p + d) ps = a * c * coSum f g ps := by
  by_cases hn : ps = []
  · subst hn; simp [coSum]
  have hl : (ps.length : ℝ) ≠ 0 := by simpa using hn
  have e : ∀ (a b : ℝ) (f : ℝ × ℝ → ℝ), average (fun p => a * f p + b) ps = a * average f ps + b := by
    intro a b f
    unfold average
    rw [list_sum_affine]
    field_simp
  unfold coSum
  rw [e, e, ← List.sum_map_mul_left]
  congr 1
  apply List.map_congr_left
  intro p _
  ring

/-- C106. A change of the units of two vectors (`x ↦ a·x + b` and `y ↦ c·y + d`) multiplies their covariance
by `a·c`; a change of both in the same direction leaves the correlation alone, and of one in the opposite
direction changes its sign. -/
theorem C106_units (a b c d : ℝ) (ps : List (ℝ × ℝ)) :
    let qs := ps.map (fun p => (a * p.1 + b, c * p.2 + d))
    (formula .sampleCovariance qs = (formula .sampleCovariance ps).map (fun x => a * c * x)) ∧
    (formula .populationCovariance qs = (formula .populationCovariance ps).map (fun x => a * c * x)) ∧
    (0 < a * c → formula .correlation qs = formula .correlation ps) ∧
    (a * c < 0 → formula .correlation qs = (formula .correlation ps).map (fun x => -x)) := by
  dsimp only
  have h : ∀ f g : ℝ × ℝ → ℝ, coSum f g (ps.map (fun p => (a * p.1 + b, c * p.2 + d))) =
      coSum (fun p => f (a * p.1 + b, c * p.2 + d)) (fun p => g (a * p.1 + b, c * p.2 + d)) ps := by
    intro f g
    simp [coSum, average, List.map_map, Function.comp_def]
  have h12 : coSum Prod.fst Prod.snd (ps.map (fun p => (a * p.1 + b, c * p.2 + d))) =
      a * c * coSum Prod.fst Prod.snd ps := by rw [h]; exact coSum_affine a b c d Prod.fst Prod.snd
  have h11 : coSum Prod.fst Prod.fst (ps.map (fun p => (a * p.1 + b, c * p.2 + d))) =
      a * a * coSum Prod.fst Prod.fst ps := by rw [h]; exact coSum_affine a b a b Prod.fst Prod.fst
  have h22 : coSum Prod.snd Prod.snd (ps.map (fun p => (a * p.1 + b, c * p.2 + d))) =
      c * c * coSum Prod.snd Prod.snd ps := by rw [h]; exact coSum_affine c d c d Prod.snd Prod.snd
  have hprod : a * a * coSum Prod.fst Prod.fst ps * (c * c * coSum Prod.snd Prod.snd ps) =
      (a * c) ^ 2 * (coSum Prod.fst Prod.fst ps * coSum Prod.snd Prod.snd ps) := by ring
  refine ⟨?_, ?_, ?_, ?_⟩
  · simp only [formula, List.length_map, h12]
    split
    · rfl
    · simp only [Option.map_some, mul_div_assoc]
  · simp only [formula, List.length_map, h12]
    split
    · rfl
    · simp only [Option.map_some, mul_div_assoc]
  · intro hac
    simp only [formula, h12, h11, h22, hprod]
    by_cases hz : coSum Prod.fst Prod.fst ps * coSum Prod.snd Prod.snd ps = 0
    · simp [hz]
    · rw [if_neg hz, if_neg (mul_ne_zero (pow_ne_zero 2 hac.ne') hz), Real.sqrt_mul (sq_nonneg _),
        Real.sqrt_sq hac.le, mul_div_mul_left _ _ hac.ne']
  · intro hac
    simp only [formula, h12, h11, h22, hprod]
    by_cases hz : coSum Prod.fst Prod.fst ps * coSum Prod.snd Prod.snd ps = 0
    · simp [hz]
    · rw [if_neg hz, if_neg (mul_ne_zero (pow_ne_zero 2 hac.ne) hz), Real.sqrt_mul (sq_nonneg _),
        Real.sqrt_sq_eq_abs, abs_of_neg hac, neg_mul, div_neg, mul_div_mul_left _ _ hac.ne]
      rfl

/-- C106. The similarities of the features are the similarities of the points of the transposed object. -/
theorem C106_transposed {k : Kind} {o t r q : Obj (Option ℝ)} (ho : o.WF) (ht : o.transpose = .ok t)
    (hr : IsSimilarity k o .feature r) (hq : IsSimilarity k t .point q) : r.Same q := by
  obtain ⟨t', t1, t2, t3, t4, t5, t6, t7, t8⟩ := transposed_vectors ho
  have : t' = t := Except.ok.inj (t1.symm.trans ht)
  subst this
  have lr : r.pts.len = q.pts.len := by rw [hr.points, hq.points]; exact t3.symm
  have lc : r.fts.len = q.fts.len := by rw [hr.features, hq.features]; exact t3.symm
  refine ⟨lr, lc, ?_, ?_, ?_⟩
  · apply List.ext_getElem (by rw [hr.wf.rows, hq.wf.rows, lr])
    intro i e1 e2
    have c1 := hr.wf.cols _ (List.getElem_mem e1)
    have c2 := hq.wf.cols _ (List.getElem_mem e2)
    apply List.ext_getElem (by omega)
    intro j f1 f2
    have hi : i < o.fts.len := by have := hr.wf.rows; have := hr.points; simp only [Obj.axis] at this; omega
    have hj : j < o.fts.len := by have := hr.features; simp only [Obj.axis] at this; omega
    have x1 := hr.entry i j hi hj
    have x2 := hq.entry i j (by show i < t'.pts.len; omega) (by show j < t'.pts.len; omega)
    rw [t7 i hi, t7 j hj, ← x1] at x2
    simpa [Obj.elem?, e1, e2, f1, f2] using x2.symm
  · rw [hr.pointNames, hq.pointNames]; exact t5.symm
  · rw [hr.featureNames, hq.featureNames]; exact t5.symm

/-- C106 is violated by the code for vectors of length zero: their sample covariance is 0, although it is
undefined (the other functions return nan). -/
theorem C106_empty_violated (mul : Obj (Option ℝ) → Obj (Option ℝ) → Res (Obj (Option ℝ)))
    {o : Obj (Option ℝ)} (ho : o.WF) (hf : o.fts.len = 0) {i j : Nat} (hi : i < o.pts.len) (hj : j < o.pts.len) :
    (∃ r, similarities mul o .point "covariance" = .ok r ∧ r.elem? i j = some (some 0)) ∧
    formula .sampleCovariance (bothKnown (o.vector .point i) (o.vector .point j)) = none := by
  have hv : ∀ i, i < o.pts.len → o.vector .point i = [] := by
    intro i hi
    have := ho.length_vector .point (i := i) hi
    exact List.length_eq_zero_iff.1 (this.trans hf)
  refine ⟨?_, by rw [hv i hi, hv j hj]; simp [formula, bothKnown]⟩
  obtain ⟨t, t1, t2, t3, t4, t5, t6, t7, t8⟩ := transposed_vectors ho
  obtain ⟨a, a1, a2, a3, a4, -⟩ := init_same ho.pts
  have hk : kindOf "covariance" = .ok .sampleCovariance := by decide +kernel
  refine ⟨⟨results o t true false, a, a⟩, ?_, ?_⟩
  · simp only [similarities, hk, t1, bind, Except.bind, callAx, call, covariance, nanCovCorr, Obj.make, a1, pure,
      Except.pure]
  · have c1 : complete o = true := by
      simp only [complete, List.all_eq_true]
      intro r hr
      have := ho.cols r hr
      rw [List.length_eq_zero_iff.1 (this.trans hf)]
      simp
    have c2 : complete t = true := by
      simp only [complete, List.all_eq_true]
      intro r hr
      have := t2.rows
      rw [t3, hf] at this
      rw [List.length_eq_zero_iff.1 this] at hr
      cases hr
    show ((results o t true false)[i]?).bind (·[j]?) = _
    unfold results
    rw [c1, c2]
    simp only [Bool.and_self, if_true, List.getElem?_map, List.getElem?_range hi, List.getElem?_range hj,
      Option.map_some, Option.bind_some, hv i hi, t8 j hj, hv j hj]
    simp [completeEntry, divCorr, npDiv, known, dotList, centred]

/-- C106. 'dot product' multiplies the object with its transposed object. -/
theorem C106_dotProduct_call (mul : Obj (Option ℝ) → Obj (Option ℝ) → Res (Obj (Option ℝ)))
    {o : Obj (Option ℝ)} (ho : o.WF) (ax : Ax) {name : String} (he : AxisStats.SameName name "dot product") :
    ∃ t, o.transpose = .ok t ∧ similarities mul o ax name = callAx mul o t ax := by
  obtain ⟨t, t1, -⟩ := transposed_vectors ho
  have hk : kindOf name = .ok .dotProduct :=
    kindOf_ok (p := ("dot product", Kind.dotProduct)) (by simp [meaning]) he
  refine ⟨t, t1, ?_⟩
  simp only [similarities, hk, t1, bind, Except.bind]
  cases ax <;> rfl

theorem sum_ofFn_zip {V : Type} [Semiring V] : ∀ {n : Nat} (u v : List V) (hu : u.length = n) (hv : v.length = n),
    (List.zipWith (· * ·) u v).sum = ∑ i : Fin n, u[i]'(by simp [hu]) * v[i]'(by simp [hv])
  | 0, u, v, hu, hv => by
    obtain rfl := List.length_eq_zero_iff.1 hu
    simp
  | n + 1, [], v, hu, hv => by simp at hu
  | n + 1, a :: u, [], hu, hv => by simp at hv
  | n + 1, a :: u, b :: v, hu, hv => by
    rw [Fin.sum_univ_succ, List.zipWith_cons_cons, List.sum_cons,
      sum_ofFn_zip (n := n) u v (by simpa using hu) (by simpa using hv)]
    rfl

theorem namesAgree_self {a : AxisSt} (h : a.Ok) : NamesAgree a.getNames a.getNames := by
  refine ⟨fun i s t hs ht => ?_, fun i j s hi hj => ?_⟩
  · rw [hs] at ht
    simpa using ht
  · have h1 := (h.getName_iff s i).1 hi
    have h2 := (h.getName_iff s j).1 hj
    rw [h1] at h2
    simpa using h2

theorem shows_entry {V : Type} {o : Obj V} {m n : Nat} {A : Matrix (Fin m) (Fin n) V} (ho : o.WF)
    (h : MatMul.Shows o A) (i : Fin m) (j : Fin n) (hl : (o.vector .point i).length = n) :
    A i j = (o.vector .point i)[j]'(by omega) := by
  have h1 := h.elem i j
  obtain ⟨r, r1, r2, r3⟩ := ho.vector_point (i := i) (by rw [h.points]; exact i.2)
  simp only [Obj.elem?, r1, Option.bind_some] at h1
  have hr : (j : Nat) < r.length := by rw [← r2, hl]; exact j.2
  rw [List.getElem?_eq_getElem hr, Option.some.injEq] at h1
  rw [← h1]
  congr 1
  exact r2.symm

theorem dot_points {V : Type} [Semiring V] {o t : Obj V} (ho : o.WF) (ht : t.WF) (hp : 0 < o.pts.len) (hf : 0 < o.fts.len)
    (l1 : t.pts.len = o.fts.len) (l2 : t.fts.len = o.pts.len) (n1 : t.pts.getNames = o.fts.getNames)
    (n2 : t.fts.getNames = o.pts.getNames)
    (hv : ∀ i, i < o.pts.len → t.vector .feature i = o.vector .point i) :
    ∃ r, o.matmul t = .ok r ∧ r.WF ∧ r.pts.len = o.pts.len ∧ r.fts.len = o.pts.len ∧
      r.pts.getNames = o.pts.getNames ∧ r.fts.getNames = o.pts.getNames ∧
      ∀ i j, i < o.pts.len → j < o.pts.len →
        r.elem? i j = some (List.zipWith (· * ·) (o.vector .point i) (o.vector .point j)).sum := by
  obtain ⟨r, hr⟩ := (MatMul.C56_accepted_iff ho ht).2 ⟨by omega, by omega, by omega, l1.symm, by
    rw [n1]; exact namesAgree_self ho.fts⟩
  obtain ⟨A, sa⟩ := MatMul.exists_shows ho
  obtain ⟨B, sb⟩ : ∃ B : Matrix (Fin o.fts.len) (Fin o.pts.len) V, MatMul.Shows t B := by
    have := MatMul.exists_shows ht
    rw [l1, l2] at this
    exact this
  obtain ⟨h1, h2, h3, h4⟩ := MatMul.C56_product ho ht sa sb hr
  refine ⟨r, hr, h4, h1.points, h1.features, h2, h3.trans n2, ?_⟩
  intro i j hi hj
  have hl : ∀ i, i < o.pts.len → (o.vector .point i).length = o.fts.len := fun i hi => ho.length_vector .point hi
  have := h1.elem ⟨i, hi⟩ ⟨j, hj⟩
  rw [this, Matrix.mul_apply, sum_ofFn_zip (n := o.fts.len) _ _ (hl i hi) (hl j hj)]
  congr 1
  apply Finset.sum_congr rfl
  intro k _
  rw [shows_entry ho sa ⟨i, hi⟩ k (hl i hi)]
  congr 1
  have hb := sb.elem k ⟨j, hj⟩
  have e : (t.vector .feature j)[(k : Nat)]? = some (B k ⟨j, hj⟩) := by
    rw [← hb]
    exact getElem?_filterMap_col (fun r hr => by rw [ht.cols r hr]; omega) k
  rw [hv j hj, List.getElem?_eq_getElem (by rw [hl j hj]; exact k.2), Option.some.injEq] at e
  exact e.symm

/-- C106. The dot product of every two points (features) of an object which is not empty, under their names. -/
theorem C106_dotProduct {V : Type} [Semiring V] {o t : Obj V} (ho : o.WF) (ht : o.transpose = .ok t) (ax : Ax)
    (hp : 0 < o.pts.len) (hf : 0 < o.fts.len) :
    ∃ r, callAx Obj.matmul o t ax = .ok r ∧ r.WF ∧ r.pts.len = (o.axis ax).len ∧ r.fts.len = (o.axis ax).len ∧
      r.pts.getNames = (o.axis ax).getNames ∧ r.fts.getNames = (o.axis ax).getNames ∧
      ∀ i j, i < (o.axis ax).len → j < (o.axis ax).len →
        r.elem? i j = some (List.zipWith (· * ·) (o.vector ax i) (o.vector ax j)).sum := by
  obtain ⟨t', t1, t2, t3, t4, t5, t6, t7, t8⟩ := transposed_vectors ho
  have : t' = t := Except.ok.inj (t1.symm.trans ht)
  subst this
  cases ax with
  | point => exact dot_points ho t2 hp hf t3 t4 t5 t6 t8
  | feature =>
    obtain ⟨r, h1, h2, h3, h4, h5, h6, h7⟩ := dot_points t2 ho (by omega) (by omega) t4.symm t3.symm t6.symm
      t5.symm (fun j hj => (t7 j (by omega)).symm)
    refine ⟨r, h1, h2, h3.trans t3, h4.trans t3, h5.trans t5, h6.trans t5, ?_⟩
    intro i j hi hj
    rw [h7 i j (by rw [t3]; exact hi) (by rw [t3]; exact hj), t7 i hi, t7 j hj]

theorem bothKnown_ofFn : ∀ {n : Nat} (f g : Fin n → ℝ),
    bothKnown (List.ofFn (fun p => some (f p))) (List.ofFn (fun p => some (g p))) = List.ofFn (fun p => (f p, g p))
  | 0, _, _ => by simp [bothKnown]
  | n + 1, f, g => by
    have := bothKnown_ofFn (fun p : Fin n => f p.succ) (fun p => g p.succ)
    simp only [bothKnown] at this
    simp only [List.ofFn_succ, bothKnown, List.zip_cons_cons, List.filterMap_cons, Option.bind_some, Option.map_some,
      this]

theorem coSum_ofFn {n : Nat} (f g : Fin n → ℝ) :
    coSum Prod.fst Prod.snd (List.ofFn (fun p => (f p, g p))) =
      ∑ p, (f p - (∑ q, f q) / n) * (g p - (∑ q, g q) / n) := by
  simp [coSum, average, List.map_ofFn, List.sum_ofFn, Function.comp_def]

/-- C106. Without missing values the covariances are those of one distribution: for every weighting the
variance of the weighted sum which they determine is not negative (the matrix is positive semidefinite). -/
theorem C106_covariance_psd {k : Kind} (hk : k = .sampleCovariance ∨ k = .populationCovariance)
    {o r : Obj (Option ℝ)} {ax : Ax} (h : IsSimilarity k o ax r) {n : Nat} (hn : 2 ≤ n)
    (x : Fin (o.axis ax).len → Fin n → ℝ)
    (hx : ∀ i : Fin (o.axis ax).len, o.vector ax i = List.ofFn (fun p => some (x i p))) :
    ∃ c : Fin (o.axis ax).len → Fin (o.axis ax).len → ℝ,
      (∀ i j : Fin (o.axis ax).len, r.elem? i j = some (some (c i j))) ∧
      ∀ w : Fin (o.axis ax).len → ℝ, 0 ≤ ∑ i, ∑ j, w i * w j * c i j := by
  obtain ⟨D, hD, hf⟩ : ∃ D : ℝ, 0 < D ∧ ∀ f g : Fin n → ℝ,
      formula k (List.ofFn (fun p => (f p, g p))) =
        some (coSum Prod.fst Prod.snd (List.ofFn (fun p => (f p, g p))) / D) := by
    have h2 : (2 : ℝ) ≤ n := by exact_mod_cast hn
    rcases hk with rfl | rfl
    · refine ⟨(n : ℝ) - 1, by linarith, fun f g => ?_⟩
      simp only [formula, List.length_ofFn]
      rw [if_neg (by omega)]
    · refine ⟨(n : ℝ), by linarith, fun f g => ?_⟩
      simp only [formula, List.length_ofFn]
      rw [if_neg (by omega)]
  let d : Fin (o.axis ax).len → Fin n → ℝ := fun i p => x i p - (∑ q, x i q) / n
  refine ⟨fun i j => (∑ p, d i p * d j p) / D, ?_, ?_⟩
  · intro i j
    rw [h.entry i j i.2 j.2, hx i, hx j, bothKnown_ofFn, hf, coSum_ofFn]
  · intro w
    have e : ∑ i, ∑ j, w i * w j * ((∑ p, d i p * d j p) / D) = (∑ p, (∑ i, w i * d i p) ^ 2) / D := by
      have r : (∑ p, (∑ i, w i * d i p) ^ 2) / D = ∑ p, ∑ i, ∑ j, w i * d i p * (w j * d j p) / D := by
        simp only [sq, Finset.sum_mul_sum, Finset.sum_div]
      rw [r]
      symm
      rw [Finset.sum_comm]
      refine Finset.sum_congr rfl fun i _ => ?_
      rw [Finset.sum_comm]
      refine Finset.sum_congr rfl fun j _ => ?_
      rw [Finset.sum_div, Finset.mul_sum]
      refine Finset.sum_congr rfl fun p _ => ?_
      ring
    rw [e]
    exact div_nonneg (Finset.sum_nonneg fun p _ => sq_nonneg _) hD.le

/-- Three points of which one has a missing value. -/
def exO : Obj (Option ℝ) :=
  ⟨[[some 1, some 2, some 3], [some 2, some 4, some 6], [some 1, none, some 0]], ⟨3, none⟩, ⟨3, none⟩⟩

theorem exO_wf : exO.WF := ⟨rfl, by simp [exO], none_ok _, none_ok _⟩

/-- C106. The hypotheses are met; the second point is twice the first, the third has two values in common with it. -/
theorem C106_example (mul : Obj (Option ℝ) → Obj (Option ℝ) → Res (Obj (Option ℝ))) :
    (∃ r, similarities mul exO .point "Correlation" = .ok r ∧ r.elem? 0 1 = some (some 1) ∧
      r.elem? 2 2 = some (some 1)) ∧
    (∃ r, similarities mul exO .point "sample covariance" = .ok r ∧ r.elem? 0 1 = some (some 2) ∧
      r.elem? 0 2 = some (some (-1))) := by
  constructor
  · obtain ⟨r, h1, h2⟩ := C106_similarities_partial mul exO_wf .point (by decide) (name := "Correlation")
      (p := ("correlation", .correlation)) (by simp [meaning]) (by decide +kernel) (by simp)
    refine ⟨r, h1, ?_, ?_⟩
    · rw [h2.entry 0 1 (by decide) (by decide)]
      have : coSum Prod.fst Prod.fst [((1 : ℝ), (2 : ℝ)), (2, 4), (3, 6)] = 2 ∧
          coSum Prod.snd Prod.snd [((1 : ℝ), (2 : ℝ)), (2, 4), (3, 6)] = 8 ∧
          coSum Prod.fst Prod.snd [((1 : ℝ), (2 : ℝ)), (2, 4), (3, 6)] = 4 := by
        simp only [coSum, average, List.map_cons, List.map_nil, List.sum_cons, List.sum_nil, List.length_cons,
          List.length_nil]
        norm_num
      have hs : Real.sqrt (2 * 8) = 4 := by
        rw [show (2 * 8 : ℝ) = 4 ^ 2 by norm_num]
        exact Real.sqrt_sq (by norm_num)
      show some (formula .correlation [((1 : ℝ), (2 : ℝ)), (2, 4), (3, 6)]) = _
      simp only [formula, this.1, this.2.1, this.2.2, hs]
      norm_num
    · rw [h2.entry 2 2 (by decide) (by decide)]
      have : coSum Prod.fst Prod.fst [((1 : ℝ), (1 : ℝ)), (0, 0)] = 1 / 2 ∧
          coSum Prod.snd Prod.snd [((1 : ℝ), (1 : ℝ)), (0, 0)] = 1 / 2 ∧
          coSum Prod.fst Prod.snd [((1 : ℝ), (1 : ℝ)), (0, 0)] = 1 / 2 := by
        simp only [coSum, average, List.map_cons, List.map_nil, List.sum_cons, List.sum_nil, List.length_cons,
          List.length_nil]
        norm_num
      have hs : Real.sqrt (1 / 2 * (1 / 2)) = 1 / 2 := Real.sqrt_mul_self (by norm_num)
      show some (formula .correlation [((1 : ℝ), (1 : ℝ)), (0, 0)]) = _
      simp only [formula, this.1, this.2.1, this.2.2, hs]
      norm_num
  · obtain ⟨r, h1, h2⟩ := C106_similarities_partial mul exO_wf .point (by decide) (name := "sample covariance")
      (p := ("sample covariance", .sampleCovariance)) (by simp [meaning]) (by decide +kernel) (by simp)
    refine ⟨r, h1, ?_, ?_⟩
    · rw [h2.entry 0 1 (by decide) (by decide)]
      show some (formula .sampleCovariance [((1 : ℝ), (2 : ℝ)), (2, 4), (3, 6)]) = _
      simp only [formula, coSum, average, List.map_cons, List.map_nil, List.sum_cons, List.sum_nil, List.length_cons,
          List.length_nil]
      norm_num
    · rw [h2.entry 0 2 (by decide) (by decide)]
      show some (formula .sampleCovariance [((1 : ℝ), (1 : ℝ)), (3, 0)]) = _
      simp only [formula, coSum, average, List.map_cons, List.map_nil, List.sum_cons, List.sum_nil, List.length_cons,
          List.length_nil]
      norm_num

end Similarities
end Nimble
