import Verif.Model.Log
import Mathlib.Data.List.Induction

/-!
# C68: what the log records
-/

namespace Nimble.Log

/-! ### Specification -/

/-- The logged part of an entry. -/
def Entry.msg (e : Entry) : Msg := ⟨e.time, e.kind, e.info⟩

/-- The messages of the operations, in order. -/
def logged : List Op → List Msg
  | [] => []
  | .log _ m :: ops => m :: logged ops
  | _ :: ops => logged ops

/-- The sessions of one process after the other, each logging its messages. -/
def sessionOps (ms : List Msg) : List Op := .open 0 :: ms.map (.log 0) ++ [.close 0]

/-- The table in which the `k`-th session with at least one message has number `k`. -/
def numbered (H : List (List Msg)) : Db :=
  (H.filter (fun ms => !ms.isEmpty)).zipIdx.flatMap
    (fun p => p.1.map (fun m => ⟨m.time, p.2, m.kind, m.info⟩))

/-! ### Lemmas -/

theorem setup_gt (db : Db) : ∀ e ∈ db, e.session < setup db := by
  intro e he
  unfold setup maxSession
  have hm : e.session ∈ db.map Entry.session := List.mem_map.2 ⟨e, he, rfl⟩
  cases h : (db.map Entry.session).max? with
  | none => rw [List.max?_eq_none_iff] at h; rw [h] at hm; simp at hm
  | some m =>
    dsimp only
    have := (List.max?_eq_some_iff.1 h).2 _ hm
    omega

theorem setup_eq {db : Db} {n : Nat} (hlt : ∀ e ∈ db, e.session < n)
    (hex : n = 0 ∨ ∃ e ∈ db, e.session + 1 = n) : setup db = n := by
  unfold setup maxSession
  cases h : (db.map Entry.session).max? with
  | none =>
    dsimp only
    rcases hex with rfl | ⟨e, he, _⟩
    · rfl
    · rw [List.max?_eq_none_iff, List.map_eq_nil_iff] at h
      rw [h] at he; simp at he
  | some m =>
    dsimp only
    obtain ⟨hm, hmax⟩ := List.max?_eq_some_iff.1 h
    obtain ⟨e, he, rfl⟩ := List.mem_map.1 hm
    have h1 := hlt e he
    rcases hex with rfl | ⟨e', he', h2⟩
    · omega
    · have := hmax _ (List.mem_map.2 ⟨e', he', rfl⟩)
      omega

theorem run_append (s : St) (a b : List Op) : s.run (a ++ b) = (s.run a).run b := by
  unfold St.run; rw [List.foldl_append]

theorem run_cons (s : St) (o : Op) (b : List Op) : s.run (o :: b) = (s.step o).run b := rfl

theorem ensure_db (s : St) (i : Nat) : (s.ensure i).db = s.db := by
  unfold St.ensure; split <;> rfl

theorem ensure_some {s : St} {i n : Nat} (h : s.loggers i = some n) : s.ensure i = s := by
  unfold St.ensure; rw [h]

theorem ensure_none {s : St} {i : Nat} (h : s.loggers i = none) :
    (s.ensure i).loggers i = some (setup s.db) := by
  unfold St.ensure; rw [h]; simp

theorem log_some {s : St} {i n : Nat} (h : s.loggers i = some n) (m : Msg) :
    s.log i m = { s with db := s.db ++ [⟨m.time, n, m.kind, m.info⟩] } := by
  unfold St.log
  dsimp only
  rw [ensure_some h, h]; rfl

/-! ### C68 -/

/-- Whatever loggers are opened, used and closed in whatever order: nothing recorded is lost or changed,
and every logged message is recorded once, in order. -/
theorem C68_all_recorded (s : St) (ops : List Op) :
    (∃ new, (s.run ops).db = s.db ++ new) ∧
    (s.run ops).db.map Entry.msg = s.db.map Entry.msg ++ logged ops := by
  induction ops generalizing s with
  | nil => exact ⟨⟨[], by simp [St.run]⟩, by simp [St.run, logged]⟩
  | cons o ops ih =>
    rw [run_cons]
    obtain ⟨⟨new, h1⟩, h2⟩ := ih (s.step o)
    cases o with
    | «open» i =>
      simp only [St.step, ensure_db] at h1 h2
      exact ⟨⟨new, h1⟩, h2⟩
    | close i => exact ⟨⟨new, h1⟩, h2⟩
    | log i m =>
      have hdb : (s.log i m).db = s.db ++ [⟨m.time, ((s.ensure i).loggers i).getD 0, m.kind, m.info⟩] := by
        unfold St.log; dsimp only; rw [ensure_db]
      simp only [St.step] at h1 h2 ⊢
      rw [hdb] at h1 h2
      refine ⟨⟨[⟨m.time, ((s.ensure i).loggers i).getD 0, m.kind, m.info⟩] ++ new, ?_⟩, ?_⟩
      · rw [h1, List.append_assoc]
      · rw [h2, List.map_append, List.append_assoc]; rfl

/-- A newly opened logger gets a session number greater than all recorded ones. -/
theorem C68_new_number {s : St} {i : Nat} (h : s.loggers i = none) :
    ∃ n, (s.ensure i).loggers i = some n ∧ ∀ e ∈ s.db, e.session < n :=
  ⟨_, ensure_none h, setup_gt s.db⟩

/-- … which it keeps for all its entries until it is closed, whatever other loggers do. -/
theorem C68_number_kept {s : St} {i n : Nat} (h : s.loggers i = some n) {ops : List Op}
    (hc : ∀ o ∈ ops, o ≠ .close i) :
    (s.run ops).loggers i = some n ∧
    ∀ pre m post, ops = pre ++ .log i m :: post →
      ((s.run ops).db[(s.run pre).db.length]?).map (fun e => (e.session, e.msg)) = some (n, m) := by
  have keep : ∀ (ops : List Op) (s : St), s.loggers i = some n → (∀ o ∈ ops, o ≠ .close i) →
      (s.run ops).loggers i = some n := by
    intro ops
    induction ops with
    | nil => intro s h _; exact h
    | cons o ops ih =>
      intro s h hc
      rw [run_cons]
      refine ih _ ?_ (fun o ho => hc o (List.mem_cons_of_mem _ ho))
      have hens : ∀ j, (s.ensure j).loggers i = some n := by
        intro j
        unfold St.ensure
        cases hj : s.loggers j with
        | some v => exact h
        | none =>
          dsimp only
          by_cases hij : i = j
          · subst hij; rw [h] at hj; simp at hj
          · rw [if_neg hij, h]
      cases o with
      | «open» j => exact hens j
      | log j m => exact hens j
      | close j =>
        have hne : i ≠ j := fun e => hc (.close j) (by simp) (by rw [e])
        simp only [St.step, St.close, if_neg hne, h]
  refine ⟨keep ops s h hc, ?_⟩
  intro pre m post hops
  have hpre := keep pre s h (fun o ho => hc o (by rw [hops]; exact List.mem_append_left _ ho))
  have hrun : s.run ops = ((s.run pre).log i m).run post := by
    rw [hops, run_append]; rfl
  rw [hrun]
  obtain ⟨new, hn⟩ := (C68_all_recorded ((s.run pre).log i m) post).1
  rw [hn, log_some hpre]
  simp [Entry.msg]

private theorem run_logs {s : St} {n : Nat} (h : s.loggers 0 = some n) (ms : List Msg) :
    (s.run (ms.map (.log 0))).db = s.db ++ ms.map (fun m => ⟨m.time, n, m.kind, m.info⟩) ∧
    (s.run (ms.map (.log 0))).loggers = s.loggers := by
  induction ms generalizing s with
  | nil => simp [St.run]
  | cons m ms ih =>
    rw [List.map_cons, run_cons]
    simp only [St.step]
    rw [log_some h]
    obtain ⟨h1, h2⟩ := ih (s := { s with db := s.db ++ [⟨m.time, n, m.kind, m.info⟩] }) h
    refine ⟨?_, h2⟩
    rw [h1, List.map_cons, List.append_assoc]; rfl

private theorem session_run {s : St} (h : s.loggers 0 = none) (ms : List Msg) :
    (s.run (sessionOps ms)).db = s.db ++ ms.map (fun m => ⟨m.time, setup s.db, m.kind, m.info⟩) ∧
    (s.run (sessionOps ms)).loggers 0 = none := by
  unfold sessionOps
  rw [List.cons_append, run_cons, run_append]
  have hl := run_logs (ensure_none h) ms
  constructor
  · show ((s.ensure 0).run (ms.map (.log 0))).db = _
    rw [hl.1, ensure_db]
  · simp [St.run, St.step, St.close]

private theorem numbered_snoc (H : List (List Msg)) (ms : List Msg) :
    numbered (H ++ [ms]) = numbered H ++
      ms.map (fun m => ⟨m.time, (H.filter (fun ms => !ms.isEmpty)).length, m.kind, m.info⟩) := by
  unfold numbered
  rw [List.filter_append]
  cases ms with
  | nil => simp
  | cons m ms =>
    rw [show [m :: ms].filter (fun ms => !ms.isEmpty) = [m :: ms] from rfl, List.zipIdx_append,
      List.flatMap_append]
    simp

theorem setup_numbered (H : List (List Msg)) :
    setup (numbered H) = (H.filter (fun ms => !ms.isEmpty)).length := by
  apply setup_eq
  · intro e he
    unfold numbered at he
    obtain ⟨p, hp, he⟩ := List.mem_flatMap.1 he
    obtain ⟨m, _, rfl⟩ := List.mem_map.1 he
    exact (List.mem_zipIdx' hp).1
  · by_cases h0 : (H.filter (fun ms => !ms.isEmpty)).length = 0
    · exact Or.inl h0
    · right
      have hlt : (H.filter (fun ms => !ms.isEmpty)).length - 1 < (H.filter (fun ms => !ms.isEmpty)).length := by
        omega
      have hmem := List.getElem_mem hlt
      have hne := (List.mem_filter.1 hmem).2
      generalize hL : (H.filter (fun ms => !ms.isEmpty))[(H.filter (fun ms => !ms.isEmpty)).length - 1] = last
        at hne
      cases last with
      | nil => simp at hne
      | cons m ms =>
        refine ⟨⟨m.time, (H.filter (fun ms => !ms.isEmpty)).length - 1, m.kind, m.info⟩, ?_, ?_⟩
        · unfold numbered
          refine List.mem_flatMap.2 ⟨(m :: ms, (H.filter (fun ms => !ms.isEmpty)).length - 1), ?_, by simp⟩
          rw [List.mem_zipIdx_iff_getElem?, List.getElem?_eq_getElem hlt, hL]
        · dsimp only; omega

/-- One process after the other: sessions that logged something are numbered 0, 1, 2, … without gaps,
and each entry carries the number of its session. -/
theorem C68_sequential_sessions (H : List (List Msg)) :
    ((⟨[], fun _ => none⟩ : St).run (H.flatMap sessionOps)).db = numbered H := by
  have key : ∀ H : List (List Msg),
      ((⟨[], fun _ => none⟩ : St).run (H.flatMap sessionOps)).db = numbered H ∧
      ((⟨[], fun _ => none⟩ : St).run (H.flatMap sessionOps)).loggers 0 = none := by
    intro H
    induction H using List.reverseRecOn with
    | nil => exact ⟨rfl, rfl⟩
    | append_singleton H ms ih =>
      rw [List.flatMap_append, run_append, List.flatMap_singleton]
      obtain ⟨h1, h2⟩ := session_run ih.2 ms
      rw [ih.1, setup_numbered] at h1
      exact ⟨by rw [h1, numbered_snoc], h2⟩
  exact (key H).1

/-- Two loggers open at the same time: the second gets a number of its own only if the first has logged
something before; otherwise the entries of both carry the same session number. -/
theorem C68_overlapping_sessions_violated {s : St} {i j : Nat} (hij : i ≠ j) (hi : s.loggers i = none)
    (hj : s.loggers j = none) (a b : Msg) :
    ∃ n, (s.run [.open i, .open j, .log i a, .log j b]).db =
      s.db ++ [⟨a.time, n, a.kind, a.info⟩, ⟨b.time, n, b.kind, b.info⟩] := by
  refine ⟨setup s.db, ?_⟩
  simp only [run_cons, St.step]
  have h1 : (s.ensure i).loggers i = some (setup s.db) := ensure_none hi
  have h1j : (s.ensure i).loggers j = none := by
    unfold St.ensure; rw [hi]; dsimp only; rw [if_neg (Ne.symm hij), hj]
  have h2 : ((s.ensure i).ensure j).loggers j = some (setup s.db) := by
    rw [ensure_none h1j, ensure_db]
  have h2i : ((s.ensure i).ensure j).loggers i = some (setup s.db) := by
    unfold St.ensure at h1j ⊢
    rw [hi] at h1j ⊢
    dsimp only at h1j ⊢
    rw [h1j]
    simp [hij]
  rw [log_some h2i, log_some (by exact h2)]
  simp [ensure_db, St.run]

/-- `nimble.log` refuses headings over 50 characters and then records nothing; otherwise it records one
entry under the heading, marked as the user's. -/
theorem C68_user_entry (s : St) (i : Nat) (time : List Char) (heading : String) (text : List Char) :
    (50 < heading.length → userLog s i time heading text = .error .InvalidArgumentValue) ∧
    (heading.length ≤ 50 → ∃ s', userLog s i time heading text = .ok s' ∧
      ∃ n, s'.db = s.db ++ [⟨time, n, "User - " ++ heading, text⟩]) := by
  unfold userLog
  constructor
  · intro h; rw [if_pos h]
  · intro h
    rw [if_neg (by omega)]
    refine ⟨_, rfl, ((s.ensure i).loggers i).getD 0, ?_⟩
    unfold St.log
    dsimp only
    rw [ensure_db]

/-! A case: two sessions with entries and an idle one between them. -/
example : ((⟨[], fun _ => none⟩ : St).run
    (([[⟨['t'], "load", []⟩, ⟨['u'], "run", []⟩], [], [⟨['v'], "prep", []⟩]] : List (List Msg)).flatMap
      sessionOps)).db = [⟨['t'], 0, "load", []⟩, ⟨['u'], 0, "run", []⟩, ⟨['v'], 1, "prep", []⟩] := by
  rw [C68_sequential_sessions]; rfl

end Nimble.Log
