import Verif.Model.TuneRange
import Mathlib.Algebra.Order.Archimedean.Basic
import Mathlib.Data.Rat.Floor
import Mathlib.Tactic.Linarith
import Mathlib.Tactic.Ring
import Mathlib.Tactic.NormNum

/-!
# C43 – Tune ranges
-/

namespace Nimble

theorem tuneLoop_det {rnd : Rat → Rat} {up : Bool} {stop change : Rat} {ct : ChangeType} {c : Rat}
    {v w : List Rat} (h : TuneLoop rnd up stop change ct c v) (h' : TuneLoop rnd up stop change ct c w) :
    v = w := by
  induction h generalizing w with
  | exit h => cases h' with
    | exit => rfl
    | step h2 => exact absurd h2 h
  | step h _ ih => cases h' with
    | exit h2 => exact absurd h h2
    | step _ h2 => rw [ih h2]

/-- `x` lies between `start` and `stop`, in either direction. -/
def Between (start stop x : Rat) : Prop := (start ≤ x ∧ x ≤ stop) ∨ (stop ≤ x ∧ x ≤ start)

private theorem comp_iff {up : Bool} {c s : Rat} (sg : Rat) (hsg : sg = if up then 1 else -1) :
    tuneComp up c s ↔ 0 ≤ sg * (s - c) := by
  unfold tuneComp
  cases up <;> simp [hsg]

private theorem add_loop {rnd : Rat → Rat} {up : Bool} {stop change ε : Rat} (sg : Rat)
    (hsg : sg = if up then 1 else -1) (hch : ε < sg * change) (hr : ∀ x, |rnd x - x| ≤ ε)
    (hε : 0 ≤ ε) (n : Nat) : ∀ curr : Rat, sg * (stop - curr) < n * (sg * change) →
    ∃ vals, TuneLoop rnd up stop change .add curr vals ∧
      (∀ (i : Nat) (v : Rat), vals[i]? = some v → 0 ≤ sg * (stop - v) ∧
        (v = curr + i * change ∨ (v = stop ∧ |stop - (curr + i * change)| ≤ ε))) ∧
      ∀ i : Nat, 0 ≤ sg * (stop - (curr + i * change)) → i < vals.length := by
  have hpos : 0 < sg * change := lt_of_le_of_lt hε hch
  have hsq : sg * sg = 1 := by rw [hsg]; cases up <;> simp
  have hge : ∀ (c : Rat) (i : Nat), sg * (stop - (c + i * change)) ≤ sg * (stop - c) := by
    intro c i
    have h1 : sg * (stop - (c + i * change)) = sg * (stop - c) - i * (sg * change) := by ring
    have h2 : (0 : Rat) ≤ i * (sg * change) := mul_nonneg (Nat.cast_nonneg i) (le_of_lt hpos)
    linarith
  have hnil : ∀ c : Rat, ¬ tuneComp up c stop → ∀ i : Nat, 0 ≤ sg * (stop - (c + i * change)) → i < 0 := by
    intro c hc i hi
    rw [comp_iff sg hsg] at hc
    exact absurd (le_trans hi (hge c i)) hc
  induction n with
  | zero =>
    intro curr h
    have hx : ¬ tuneComp up curr stop := by
      rw [comp_iff sg hsg]
      rw [Nat.cast_zero, zero_mul] at h
      linarith
    exact ⟨[], .exit hx, by simp, hnil curr hx⟩
  | succ n ih =>
    intro curr h
    by_cases hc : tuneComp up curr stop
    · by_cases hrn : rnd (curr + change) = stop
      · -- the rounded value is `end`: append it and stop
        have hnx : tuneNext rnd stop change .add curr = stop := by simp [tuneNext, hrn]
        have hnx2 : tuneNext rnd stop change .add stop = stop + change := by
          unfold tuneNext
          simp only
          rw [if_neg]
          intro he
          have h1 := hr (stop + change)
          rw [he] at h1
          have h2 : |stop - (stop + change)| = |change| := by
            rw [show stop - (stop + change) = -change by ring, abs_neg]
          rw [h2] at h1
          have h3 : sg * change ≤ |change| := by
            have habs : |sg| = 1 := by rw [hsg]; cases up <;> simp
            calc sg * change ≤ |sg * change| := le_abs_self _
              _ = |change| := by rw [abs_mul, habs, one_mul]
          linarith
        refine ⟨[curr, stop], .step hc ?_, ?_, ?_⟩
        · rw [hnx]
          refine .step ?_ ?_
          · rw [comp_iff sg hsg]; simp
          · rw [hnx2]
            refine .exit ?_
            rw [comp_iff sg hsg]
            have : sg * (stop - (stop + change)) = -(sg * change) := by ring
            rw [this]
            linarith
        · intro i v hv
          rcases i with _ | _ | i
          · simp at hv
            subst hv
            exact ⟨(comp_iff sg hsg).1 hc, Or.inl (by simp)⟩
          · simp at hv
            subst hv
            refine ⟨by simp, Or.inr ⟨rfl, ?_⟩⟩
            have := hr (curr + change)
            rw [hrn] at this
            simpa using this
          · simp at hv
        · intro i hi
          rcases i with _ | _ | i
          · simp
          · simp
          · exfalso
            have h0 := hge (curr + 2 * change) i
            have e : curr + ((i + 1 + 1 : Nat) : Rat) * change = curr + 2 * change + i * change := by
              push_cast; ring
            rw [e] at hi
            have h1 := hr (curr + change)
            rw [hrn] at h1
            have h2 : sg * (stop - (curr + change)) ≤ ε := by
              have habs : |sg| = 1 := by rw [hsg]; cases up <;> simp
              calc sg * (stop - (curr + change)) ≤ |sg * (stop - (curr + change))| := le_abs_self _
                _ = |stop - (curr + change)| := by rw [abs_mul, habs, one_mul]
                _ ≤ ε := h1
            have h3 : sg * (stop - (curr + 2 * change)) = sg * (stop - (curr + change)) - sg * change := by
              ring
            linarith
      · have hnx : tuneNext rnd stop change .add curr = curr + change := by simp [tuneNext, hrn]
        obtain ⟨vals, h1, h2, h5⟩ := ih (curr + change) (by
          have : sg * (stop - (curr + change)) = sg * (stop - curr) - sg * change := by ring
          rw [this]
          push_cast at h
          linarith)
        have e : ∀ i : Nat, curr + ((i + 1 : Nat) : Rat) * change = curr + change + i * change := by
          intro i; push_cast; ring
        refine ⟨curr :: vals, .step hc (by rw [hnx]; exact h1), ?_, ?_⟩
        · intro i v hv
          rcases i with _ | i
          · simp at hv
            subst hv
            exact ⟨(comp_iff sg hsg).1 hc, Or.inl (by simp)⟩
          · simp only [List.getElem?_cons_succ] at hv
            rw [e]; exact h2 i v hv
        · intro i hi
          rcases i with _ | i
          · simp
          · rw [e] at hi
            have := h5 i hi
            simp only [List.length_cons]; omega
    · exact ⟨[], .exit hc, by simp, hnil curr hc⟩

/-- C43. A linear range with different start and end and a change in the right direction is
accepted, terminates, and holds exactly the values `start + i * change` that do not pass `end` (the
last one replaced by `end` if rounding makes them equal), in order.  `rnd` is any rounding that
moves a number by at most `ε`, less than the change. -/
theorem C43_linear_partial {rnd : Rat → Rat} {start stop change ε : Rat} (hr : ∀ x, |rnd x - x| ≤ ε)
    (hdir : (start < stop ∧ ε < change) ∨ (stop < start ∧ change < -ε)) :
    ∃ vals, (∀ w, TuneValues rnd (some start) stop (some change) (some .add) w ↔ w = vals) ∧
      (∀ (i : Nat) (v : Rat), vals[i]? = some v → Between start stop v ∧
        (v = start + i * change ∨ (v = stop ∧ |stop - (start + i * change)| ≤ ε))) ∧
      ∀ i : Nat, Between start stop (start + i * change) → i < vals.length := by
  have hε : 0 ≤ ε := le_trans (abs_nonneg _) (hr 0)
  obtain ⟨up, sg, hsg, hdr, hch, hst⟩ : ∃ (up : Bool) (sg : Rat), sg = (if up then 1 else -1) ∧
      tuneDirection start stop change .add = .ok up ∧ ε < sg * change ∧ 0 < sg * (stop - start) := by
    rcases hdir with ⟨h1, h2⟩ | ⟨h1, h2⟩
    · refine ⟨true, 1, by simp, ?_, by linarith, by linarith⟩
      unfold tuneDirection
      rw [if_pos h1, if_neg (by simp), if_neg (by simp; linarith)]
    · refine ⟨false, -1, by simp, ?_, by linarith, by linarith⟩
      unfold tuneDirection
      rw [if_neg (not_lt.2 (le_of_lt h1)), if_pos h1, if_neg (by simp), if_neg (by simp; linarith)]
  have hpos : 0 < sg * change := lt_of_le_of_lt hε hch
  obtain ⟨n, hn⟩ := exists_nat_gt (sg * (stop - start) / (sg * change))
  rw [div_lt_iff₀ hpos] at hn
  obtain ⟨vals, h1, h2, h3⟩ := add_loop (rnd := rnd) (stop := stop) sg hsg hch hr hε n start hn
  have hbet : ∀ x, Between start stop x ↔ 0 ≤ sg * (stop - x) ∧ 0 ≤ sg * (x - start) := by
    intro x
    unfold Between
    cases up
    · have hsg' : sg = -1 := by simpa using hsg
      subst hsg'
      constructor
      · rintro (⟨a, b⟩ | ⟨a, b⟩) <;> constructor <;> linarith
      · rintro ⟨a, b⟩; exact Or.inr ⟨by linarith, by linarith⟩
    · have hsg' : sg = 1 := by simpa using hsg
      subst hsg'
      constructor
      · rintro (⟨a, b⟩ | ⟨a, b⟩) <;> constructor <;> linarith
      · rintro ⟨a, b⟩; exact Or.inl ⟨by linarith, by linarith⟩
  refine ⟨vals, ?_, ?_, ?_⟩
  · intro w
    constructor
    · rintro ⟨up', hd, hl⟩
      simp only [Option.getD_some] at hd hl
      rw [hdr] at hd
      cases hd
      exact tuneLoop_det hl h1
    · rintro rfl
      exact ⟨up, hdr, h1⟩
  · intro i v hv
    obtain ⟨h4, h5⟩ := h2 i v hv
    refine ⟨(hbet v).2 ⟨h4, ?_⟩, h5⟩
    rcases h5 with h5 | ⟨h5, _⟩
    · rw [h5]
      have : sg * (start + i * change - start) = i * (sg * change) := by ring
      rw [this]
      exact mul_nonneg (Nat.cast_nonneg i) (le_of_lt hpos)
    · rw [h5]; exact le_of_lt hst
  · intro i hi
    exact h3 i ((hbet _).1 hi).1

/-! ### Multiplicative ranges -/

private theorem mul_never {rnd : Rat → Rat} {up : Bool} {stop change : Rat} (Inv : Rat → Prop)
    (h1 : ∀ c, Inv c → tuneComp up c stop) (h2 : ∀ c, Inv c → Inv (c * change)) {c : Rat} (hc : Inv c) :
    ¬ ∃ vals, TuneLoop rnd up stop change .multiply c vals := by
  rintro ⟨vals, hl⟩
  induction hl with
  | exit hn => exact hn (h1 _ hc)
  | step _ _ ih => exact ih (h2 _ hc)

private theorem mul_loop {rnd : Rat → Rat} {up : Bool} {stop change : Rat} (n : Nat) : ∀ curr : Rat,
    ¬ tuneComp up (curr * change ^ n) stop →
    ∃ vals, TuneLoop rnd up stop change .multiply curr vals ∧
      (∀ (i : Nat) (v : Rat), vals[i]? = some v → tuneComp up v stop ∧ v = curr * change ^ i) ∧
      ¬ tuneComp up (curr * change ^ vals.length) stop := by
  induction n with
  | zero =>
    intro curr h
    refine ⟨[], .exit (by simpa using h), by simp, by simpa using h⟩
  | succ n ih =>
    intro curr h
    by_cases hc : tuneComp up curr stop
    · obtain ⟨vals, h1, h2, h3⟩ := ih (curr * change) (by
        rw [show curr * change * change ^ n = curr * change ^ (n + 1) by ring]; exact h)
      refine ⟨curr :: vals, .step hc h1, ?_, ?_⟩
      · intro i v hv
        rcases i with _ | i
        · simp at hv; subst hv; exact ⟨hc, by simp⟩
        · simp only [List.getElem?_cons_succ] at hv
          obtain ⟨h4, h5⟩ := h2 i v hv
          exact ⟨h4, by rw [h5]; ring⟩
      · rw [List.length_cons, show curr * change ^ (vals.length + 1) = curr * change * change ^ vals.length by ring]
        exact h3
    · exact ⟨[], .exit hc, by simp, by simpa using hc⟩

private theorem mul_values {rnd : Rat → Rat} {up : Bool} {stop change c : Rat} {vals : List Rat}
    (h : TuneLoop rnd up stop change .multiply c vals) :
    (∀ (i : Nat) (v : Rat), vals[i]? = some v → tuneComp up v stop ∧ v = c * change ^ i) ∧
      ¬ tuneComp up (c * change ^ vals.length) stop := by
  induction h with
  | exit h => exact ⟨by simp, by simpa using h⟩
  | @step curr vals hc _ ih =>
    obtain ⟨h2, h3⟩ := ih
    refine ⟨?_, ?_⟩
    · intro i v hv
      rcases i with _ | i
      · simp at hv; subst hv; exact ⟨hc, by simp⟩
      · simp only [List.getElem?_cons_succ] at hv
        obtain ⟨h4, h5⟩ := h2 i v hv
        exact ⟨h4, by rw [h5]; simp only [tuneNext]; ring⟩
    · rw [List.length_cons, show curr * change ^ (vals.length + 1) = curr * change * change ^ vals.length by ring]
      exact h3

/-- C43. A multiplicative range is accepted exactly for `start < end, change ≥ 1` and
`start > end, 0 < change < 1`, but building it terminates only if moreover `start > 0` and
`change > 1` (upwards) or `end > 0` (downwards); then it holds the values `start * change^i` up to
the first one beyond `end`. -/
theorem C43_multiply_partial (rnd : Rat → Rat) (start stop change : Rat) :
    ((∃ up, tuneDirection start stop change .multiply = .ok up) ↔
      (start < stop ∧ 1 ≤ change) ∨ (stop < start ∧ 0 < change ∧ change < 1)) ∧
    ((∃ vals, TuneValues rnd (some start) stop (some change) (some .multiply) vals) ↔
      (start < stop ∧ 1 < change ∧ 0 < start) ∨ (stop < start ∧ 0 < change ∧ change < 1 ∧ 0 < stop)) ∧
    ∀ vals, TuneValues rnd (some start) stop (some change) (some .multiply) vals →
      (∀ (i : Nat) (v : Rat), vals[i]? = some v → Between start stop v ∧ v = start * change ^ i) ∧
      ¬ Between start stop (start * change ^ vals.length) := by
  have hdir : ∀ up, tuneDirection start stop change .multiply = .ok up ↔
      (up = true ∧ start < stop ∧ 1 ≤ change) ∨ (up = false ∧ stop < start ∧ 0 < change ∧ change < 1) := by
    intro up
    unfold tuneDirection
    split
    · next h =>
      split
      · next h2 => simp at h2; simp; constructor <;> intros <;> linarith
      · next h2 =>
        rw [if_neg (by simp)]
        simp at h2
        simp only [Except.ok.injEq]
        constructor
        · rintro rfl; exact Or.inl ⟨rfl, h, h2⟩
        · rintro (⟨rfl, _⟩ | ⟨_, h3, _⟩)
          · rfl
          · linarith
    · next h =>
      split
      · next h1 =>
        split
        · next h2 =>
          simp only [true_and] at h2
          simp only [reduceCtorEq, false_iff]
          rintro (⟨_, h3, _⟩ | ⟨_, _, h3, h4⟩)
          · exact h h3
          · rcases h2 with h2 | h2 <;> linarith
        · next h2 =>
          rw [if_neg (by simp)]
          simp only [true_and, not_or, not_le] at h2
          simp only [Except.ok.injEq]
          constructor
          · rintro rfl; exact Or.inr ⟨rfl, h1, h2.2, h2.1⟩
          · rintro (⟨_, h3, _⟩ | ⟨rfl, _⟩)
            · exact absurd h3 h
            · rfl
      · next h1 =>
        simp only [reduceCtorEq, false_iff]
        rintro (⟨_, h3, _⟩ | ⟨_, h3, _⟩)
        · exact h h3
        · exact h1 h3
  have hterm : (∃ vals, TuneValues rnd (some start) stop (some change) (some .multiply) vals) ↔
      (start < stop ∧ 1 < change ∧ 0 < start) ∨ (stop < start ∧ 0 < change ∧ change < 1 ∧ 0 < stop) := ?hterm
  refine ⟨?_, hterm, ?_⟩
  · constructor
    · rintro ⟨up, h⟩
      rcases (hdir up).1 h with ⟨_, h⟩ | ⟨_, h⟩
      · exact Or.inl h
      · exact Or.inr h
    · rintro (h | h)
      · exact ⟨true, (hdir true).2 (Or.inl ⟨rfl, h⟩)⟩
      · exact ⟨false, (hdir false).2 (Or.inr ⟨rfl, h⟩)⟩
  · intro vals hv
    have ht := hterm.1 ⟨vals, hv⟩
    obtain ⟨up, hd, hl⟩ := hv
    simp only [Option.getD_some] at hd hl
    obtain ⟨h2, h3⟩ := mul_values hl
    rcases ht with ⟨h4, h5, h6⟩ | ⟨h4, h5, h6, h7⟩
    · have hup : up = true := by
        rcases (hdir up).1 hd with ⟨h, _⟩ | ⟨_, h, _⟩
        · exact h
        · linarith
      subst hup
      have hge : ∀ i : Nat, start ≤ start * change ^ i := fun i =>
        le_mul_of_one_le_right (le_of_lt h6) (one_le_pow₀ (le_of_lt h5))
      refine ⟨fun i v hv => ⟨Or.inl ⟨?_, (h2 i v hv).1⟩, (h2 i v hv).2⟩, ?_⟩
      · rw [(h2 i v hv).2]; exact hge i
      · rintro (⟨_, h⟩ | ⟨_, h⟩)
        · exact h3 h
        · exact h3 (le_trans h (le_of_lt h4))
    · have hup : up = false := by
        rcases (hdir up).1 hd with ⟨_, h, _⟩ | ⟨h, _⟩
        · linarith
        · exact h
      subst hup
      have hs : 0 < start := lt_trans h7 h4
      have hle : ∀ i : Nat, start * change ^ i ≤ start := fun i =>
        mul_le_of_le_one_right (le_of_lt hs) (pow_le_one₀ (le_of_lt h5) (le_of_lt h6))
      refine ⟨fun i v hv => ⟨Or.inr ⟨(h2 i v hv).1, ?_⟩, (h2 i v hv).2⟩, ?_⟩
      · rw [(h2 i v hv).2]; exact hle i
      · rintro (⟨h, _⟩ | ⟨h, _⟩)
        · exact h3 (le_trans (le_of_lt h4) h)
        · exact h3 h
  case hterm =>
    constructor
    · rintro ⟨vals, up, hd, hl⟩
      simp only [Option.getD_some] at hd hl
      rcases (hdir up).1 hd with ⟨rfl, h1, h2⟩ | ⟨rfl, h1, h2, h3⟩
      · left
        by_contra hcon
        refine mul_never (rnd := rnd) (up := true) (stop := stop) (change := change)
          (fun c => c ≤ start ∧ (c ≤ 0 ∨ change = 1)) ?_ ?_ (c := start) ⟨le_refl _, ?_⟩ ⟨vals, hl⟩
        · rintro c ⟨h4, _⟩; show c ≤ stop; linarith
        · rintro c ⟨h4, h5⟩
          rcases h5 with h5 | h5
          · refine ⟨?_, Or.inl ?_⟩
            · nlinarith
            · exact mul_nonpos_of_nonpos_of_nonneg h5 (by linarith)
          · rw [h5]; simp [h4]
        · by_cases h5 : start ≤ 0
          · exact Or.inl h5
          · right
            by_contra h6
            exact hcon ⟨h1, lt_of_le_of_ne h2 (Ne.symm h6), not_le.1 h5⟩
      · right
        refine ⟨h1, h2, h3, ?_⟩
        by_contra hcon
        rw [not_lt] at hcon
        refine mul_never (rnd := rnd) (up := false) (stop := stop) (change := change)
          (fun c => stop ≤ c) ?_ ?_ (c := start) (le_of_lt h1) ⟨vals, hl⟩
        · intro c hc; exact hc
        · intro c hc
          show stop ≤ c * change
          by_cases h0 : 0 ≤ c
          · exact le_trans hcon (mul_nonneg h0 (le_of_lt h2))
          · nlinarith
    · rintro (⟨h1, h2, h3⟩ | ⟨h1, h2, h3, h4⟩)
      · obtain ⟨n, hn⟩ := pow_unbounded_of_one_lt (stop / start) h2
        rw [div_lt_iff₀ h3] at hn
        obtain ⟨vals, hv, _⟩ := mul_loop (rnd := rnd) (up := true) (stop := stop) (change := change) n start
          (by show ¬ (start * change ^ n ≤ stop); rw [mul_comm]; linarith)
        exact ⟨vals, true, (hdir true).2 (Or.inl ⟨rfl, h1, le_of_lt h2⟩), hv⟩
      · have hs : 0 < start := lt_trans h4 h1
        obtain ⟨n, hn⟩ := exists_pow_lt_of_lt_one (div_pos h4 hs) h3
        rw [lt_div_iff₀ hs] at hn
        obtain ⟨vals, hv, _⟩ := mul_loop (rnd := rnd) (up := false) (stop := stop) (change := change) n start
          (by show ¬ (start * change ^ n ≥ stop); rw [mul_comm]; exact not_le.2 hn)
        exact ⟨vals, false, (hdir false).2 (Or.inr ⟨rfl, h1, h2, h3⟩), hv⟩

/-- C43 fails for equal ends: `Tune(start=x, end=x)` crashes with an unbound variable, although the
range is the single value `x`. -/
theorem C43_equal_ends_violated (rnd : Rat → Rat) (x change : Rat) (ct : ChangeType) :
    tuneDirection x x change ct = .error .NameError ∧
    ¬ ∃ vals, TuneValues rnd (some x) x (some change) (some ct) vals := by
  have : tuneDirection x x change ct = .error .NameError := by
    unfold tuneDirection
    rw [if_neg (lt_irrefl x), if_neg (lt_irrefl x)]
  refine ⟨this, ?_⟩
  rintro ⟨vals, up, hd, _⟩
  simp only [Option.getD_some] at hd
  rw [this] at hd
  cases hd

/-- C43 fails for accepted multiplicative ranges: with the default start 0 (or the default change 1)
the constructor never returns. -/
theorem C43_never_returns_violated (rnd : Rat → Rat) :
    (∃ up, tuneDirection 0 10 2 .multiply = .ok up) ∧
    ¬ (∃ vals, TuneValues rnd none 10 (some 2) (some .multiply) vals) ∧
    (∃ up, tuneDirection 1 10 1 .multiply = .ok up) ∧
    ¬ ∃ vals, TuneValues rnd (some 1) 10 none (some .multiply) vals := by
  refine ⟨(C43_multiply_partial rnd 0 10 2).1.2 (by norm_num), ?_,
    (C43_multiply_partial rnd 1 10 1).1.2 (by norm_num), ?_⟩
  · rintro ⟨vals, h⟩
    have := (C43_multiply_partial rnd 0 10 2).2.1.1 ⟨vals, h⟩
    norm_num at this
  · rintro ⟨vals, h⟩
    have := (C43_multiply_partial rnd 1 10 1).2.1.1 ⟨vals, h⟩
    norm_num at this

/-- C43 fails for descending Python ranges: `Tune(range(2, 0, -1))` holds 0 and -1, which are not
in the range. -/
theorem C43_descending_range_violated :
    ∃ vals, TuneOfRange id 2 0 (-1) vals ∧ (0 : Rat) ∈ vals ∧ (-1 : Rat) ∈ vals := by
  refine ⟨[2, 1, 0, -1], ⟨false, ?_, ?_⟩, by simp, by simp⟩
  · unfold tuneDirection; norm_num; intro h; cases h
  · have e : ∀ c : Rat, c ≠ 0 → tuneNext id ((0 : Int) - 1 : Rat) ((some ((-1 : Int) : Rat)).getD 1) .add c = c - 1 := by
      intro c hc
      simp only [tuneNext, Option.getD_some, id]
      rw [if_neg]
      · push_cast; ring
      · push_cast
        intro h
        apply hc; linarith
    refine .step (by unfold tuneComp; norm_num) ?_
    simp only [Option.getD_some, Option.getD_none] at e ⊢
    rw [e _ (by norm_num)]
    norm_num
    refine .step (by unfold tuneComp; norm_num) ?_
    norm_num [tuneNext]
    refine .step (by unfold tuneComp; norm_num) ?_
    norm_num [tuneNext]
    refine .step (by unfold tuneComp; norm_num) ?_
    norm_num [tuneNext]
    exact .exit (by unfold tuneComp; norm_num)

/-- The hypotheses of `C43_linear_partial` are met by `Tune(start=0, end=1, change=0.25)`. -/
example : (∀ x : Rat, |id x - x| ≤ 0) ∧ (((0 : Rat) < 1 ∧ (0 : Rat) < 1 / 4) ∨ ((1 : Rat) < 0 ∧ (1 / 4 : Rat) < -0)) :=
  ⟨by simp, Or.inl (by norm_num)⟩

/-- C43. A linear range is accepted exactly when the change leads from `start` towards `end`. -/
theorem C43_linear_accepts (start stop change : Rat) :
    (∃ up, tuneDirection start stop change .add = .ok up) ↔
      (start < stop ∧ 0 < change) ∨ (stop < start ∧ change < 0) := by
  unfold tuneDirection
  by_cases h1 : start < stop
  · rw [if_pos h1, if_neg (by simp)]
    by_cases h2 : change ≤ 0
    · rw [if_pos ⟨rfl, h2⟩]
      constructor
      · rintro ⟨_, h⟩; cases h
      · rintro (⟨_, h⟩ | ⟨h, _⟩)
        · linarith
        · linarith
    · rw [if_neg (fun h => h2 h.2)]
      exact ⟨fun _ => Or.inl ⟨h1, not_le.1 h2⟩, fun _ => ⟨_, rfl⟩⟩
  · rw [if_neg h1]
    by_cases h3 : start > stop
    · rw [if_pos h3, if_neg (by simp)]
      by_cases h2 : change ≥ 0
      · rw [if_pos ⟨rfl, h2⟩]
        constructor
        · rintro ⟨_, h⟩; cases h
        · rintro (⟨h, _⟩ | ⟨_, h⟩)
          · exact absurd h h1
          · linarith
      · rw [if_neg (fun h => h2 h.2)]
        exact ⟨fun _ => Or.inr ⟨h3, not_le.1 h2⟩, fun _ => ⟨_, rfl⟩⟩
    · rw [if_neg h3]
      constructor
      · rintro ⟨_, h⟩; cases h
      · rintro (⟨h, _⟩ | ⟨h, _⟩)
        · exact absurd h h1
        · exact absurd h h3

end Nimble
