import Verif.Model.Entry
import Mathlib.Data.List.Induction

/-!
# C70: every call of the user is recognised as such
-/

namespace Nimble.EntryPoint

def Call.id : Call → Nat
  | .mk i _ _ => i

def Call.inner : Call → List Call
  | .mk _ l _ => l

theorem entries_append (f : Flag) (a b : List Ev) :
    entries f (a ++ b) = entries f a ++ entries (a.foldl step f) b := by
  induction a generalizing f with
  | nil => rfl
  | cons e a ih =>
    cases e with
    | enter i => rw [List.cons_append, entries, ih, entries, List.foldl_cons, List.append_assoc]; rfl
    | leave => rw [List.cons_append, entries, ih, entries, List.foldl_cons]; rfl

private theorem after_call (f : Flag) (c : Call) : c.events.foldl step f = none := by
  cases c with
  | mk i inner r => rw [Call.events, List.foldl_cons, List.foldl_append]; rfl

private theorem eventsAll_none (cs : List Call) :
    (eventsAll cs).foldl step none = none ∧ ∀ c ∈ cs, c.id ∈ entries none (eventsAll cs) := by
  induction cs with
  | nil => exact ⟨rfl, by simp⟩
  | cons c cs ih =>
    obtain ⟨h1, h2⟩ := ih
    refine ⟨?_, ?_⟩
    · rw [eventsAll, List.foldl_append, after_call, h1]
    · intro d hd
      rw [eventsAll, entries_append, after_call]
      rcases List.mem_cons.1 hd with rfl | hd
      · apply List.mem_append_left
        cases d with
        | mk i inner r => simp [Call.events, entries, enter, Call.id]
      · exact List.mem_append_right _ (h2 d hd)

/-- Every call the user makes is recognised as the user's, whatever calls were made before, whatever they
called in turn, and whichever of them raised. -/
theorem C70_user_calls_recognised (history : List Call) (c : Call) (hc : c ∈ history) :
    c.id ∈ entries none (eventsAll history) :=
  (eventsAll_none history).2 c hc

/-- The first call a user's call makes in turn is not taken for the user's (all calls numbered
differently). -/
theorem C70_first_inner_call_partial (i j : Nat) (inner rest : List Call) (a b : Bool) (hij : i ≠ j)
    (hj : j ∉ entries (some false) (eventsAll inner)) (hj' : j ∉ entries none (eventsAll rest)) :
    j ∉ entries none (Call.mk i (Call.mk j inner a :: rest) b).events := by
  rw [Call.events, entries]
  simp only [enter, if_true, List.singleton_append, List.mem_cons, not_or]
  refine ⟨Ne.symm hij, ?_⟩
  rw [eventsAll, Call.events]
  simp only [List.cons_append, List.append_assoc, List.nil_append]
  rw [entries, entries_append]
  simp only [enter, List.mem_append, not_or]
  refine ⟨by simp, hj, ?_⟩
  rw [entries, leave, entries_append]
  simp only [List.mem_append, not_or]
  refine ⟨hj', ?_⟩
  simp [entries]

private def isEnter : Ev → Bool
  | .enter _ => true
  | .leave => false

/-- For every history, in any number of threads: a starting call is taken for the user's exactly when the
last thing that happened before is not the start of another call. -/
theorem C70_recognised_iff (pre : List Ev) (i : Nat) :
    entries none (pre ++ [.enter i]) = entries none pre ++
      (if pre.getLast?.map isEnter = some true then [] else [i]) := by
  have hflag : ∀ (pre : List Ev), (pre.foldl step none = none ↔ pre.getLast?.map isEnter ≠ some true) := by
    intro pre
    induction pre using List.reverseRecOn with
    | nil => simp
    | append_singleton pre e _ =>
      rw [List.foldl_append, List.getLast?_append]
      cases e with
      | enter k =>
        simp only [List.foldl_cons, List.foldl_nil, step, List.getLast?_singleton, Option.some_or,
          Option.map_some, isEnter]
        cases pre.foldl step none <;> simp [enter]
      | leave => simp [step, leave, isEnter]
  rw [entries_append]
  congr 1
  by_cases h : pre.getLast?.map isEnter = some true
  · rw [if_pos h]
    have : pre.foldl step none ≠ none := fun hc => (hflag pre).1 hc h
    cases hf : pre.foldl step none with
    | none => exact absurd hf this
    | some b => simp [entries, enter]
  · rw [if_neg h, (hflag pre).2 h]
    rfl

/-- Any further inner call is taken for the user's: it is checked, and logged if it asks for it. -/
theorem C70_later_inner_calls_violated (i : Nat) (first : Call) (later : List Call) (r : Bool) (c : Call)
    (hc : c ∈ later) : c.id ∈ entries none (Call.mk i (first :: later) r).events := by
  rw [Call.events, entries]
  simp only [enter, if_true]
  apply List.mem_append_right
  rw [eventsAll, List.append_assoc, entries_append, after_call, entries_append]
  exact List.mem_append_right _ (List.mem_append_left _ (C70_user_calls_recognised later c hc))

/-- With two threads a call of the user that starts while another is running is not recognised: its
arguments are not checked, and `train` does not log it. -/
theorem C70_threads_violated (i j : Nat) (hij : i ≠ j) :
    entries none [.enter i, .enter j, .leave, .leave] = [i] ∧
    (∀ useLog, trainLogs (decide (j ∈ entries none [.enter i, .enter j, .leave, .leave])) useLog = false) := by
  have h : entries none [.enter i, .enter j, .leave, .leave] = [i] := rfl
  refine ⟨h, fun useLog => ?_⟩
  rw [h]
  simp [trainLogs, Ne.symm hij]

/-! `trainAndApply` calling `train`, then `apply`: the latter is taken for the user's. -/
example : entries none (Call.mk 0 [.mk 1 [] false, .mk 2 [] true] true).events = [0, 2] := rfl

end Nimble.EntryPoint
