import Verif.Lemmas.Names

/-! Helper lemmas about partial renaming. -/

namespace Nimble

theorem checkNew_ok_iff (t : NameTable) (d : PyDict (Option String) Nat) :
    checkNew t d = .ok () ↔ ∀ s idx, (some s, idx) ∈ d → s ∈ PyDict.keys t.names →
      (t.inv[idx]?).join = some s := by
  induction d with
  | nil => simp [checkNew]
  | cons p d ih =>
    obtain ⟨n, k⟩ := p
    cases n with
    | none =>
      simp only [checkNew, ih]
      constructor
      · intro h s idx hm; rcases List.mem_cons.1 hm with h1 | h1
        · simp at h1
        · exact h s idx h1
      · intro h s idx hm; exact h s idx (List.mem_cons_of_mem _ hm)
    | some s0 =>
      simp only [checkNew]
      by_cases hk : s0 ∈ PyDict.keys t.names
      · rw [if_pos (PyDict.has_iff.2 hk)]
        by_cases he : (t.inv[k]?).join = some s0
        · rw [if_pos he, ih]
          constructor
          · intro h s idx hm; rcases List.mem_cons.1 hm with h1 | h1
            · simp at h1; obtain ⟨rfl, rfl⟩ := h1; exact fun _ => he
            · exact h s idx h1
          · intro h s idx hm; exact h s idx (List.mem_cons_of_mem _ hm)
        · rw [if_neg he]
          constructor
          · intro h; simp at h
          · intro h; exact absurd (h s0 k (by simp) hk) he
      · rw [if_neg (fun h => hk (PyDict.has_iff.1 h)), ih]
        constructor
        · intro h s idx hm; rcases List.mem_cons.1 hm with h1 | h1
          · simp at h1; obtain ⟨rfl, rfl⟩ := h1; exact fun h2 => absurd h2 hk
          · exact h s idx h1
        · intro h s idx hm; exact h s idx (List.mem_cons_of_mem _ hm)

theorem checkNew_cases (t : NameTable) (d : PyDict (Option String) Nat) :
    checkNew t d = .ok () ∨ checkNew t d = .error .InvalidArgumentValue := by
  induction d with
  | nil => simp [checkNew]
  | cons p d ih =>
    obtain ⟨n, k⟩ := p
    cases n with
    | none => simpa [checkNew] using ih
    | some s =>
      simp only [checkNew]
      split
      · split
        · exact ih
        · exact Or.inr rfl
      · exact ih

theorem foldl_del_get? (old : PyDict (Option String) Nat) (d : PyDict String Nat) (s : String) :
    PyDict.get? (old.foldl delOld d) s =
    if some s ∈ PyDict.keys old then none else PyDict.get? d s := by
  induction old generalizing d with
  | nil => simp
  | cons p old ih =>
    obtain ⟨n, k⟩ := p
    rw [List.foldl_cons, ih]
    cases n with
    | none => simp [delOld]
    | some s' =>
      simp only [delOld, PyDict.get?_del, PyDict.keys_cons, List.mem_cons, Option.some.injEq]
      by_cases h : s' = s
      · subst h; simp
      · have h2 : s ≠ s' := fun e => h e.symm
        simp [h, h2]

theorem foldl_del_nodup (old : PyDict (Option String) Nat) (d : PyDict String Nat)
    (hd : (PyDict.keys d).Nodup) :
    (PyDict.keys (old.foldl delOld d)).Nodup := by
  induction old generalizing d with
  | nil => exact hd
  | cons p old ih =>
    obtain ⟨n, k⟩ := p
    rw [List.foldl_cons]
    cases n with
    | none => exact ih _ hd
    | some s' => exact ih _ (PyDict.nodup_del hd _)

/-- The write loop (axis.py:308-311) of `applyNew`. -/
def writeNew (t : NameTable) (new : PyDict (Option String) Nat) : NameTable :=
  new.foldl writeOne t

theorem writeNew_inv (new : PyDict (Option String) Nat) (t : NameTable)
    (hk : (new.map Prod.snd).Nodup) (hb : ∀ p ∈ new, p.2 < t.inv.length) (k : Nat) :
    (∀ n, (n, k) ∈ new → (writeNew t new).inv[k]? = some n) ∧
    ((∀ n, (n, k) ∉ new) → (writeNew t new).inv[k]? = t.inv[k]?) := by
  induction new generalizing t with
  | nil => simp [writeNew]
  | cons p new ih =>
    obtain ⟨m, j⟩ := p
    simp only [List.map_cons, List.nodup_cons] at hk
    have := ih (t := writeOne t (m, j)) hk.2 (by intro q hq; simpa [writeOne] using hb q (by simp [hq]))
    simp only [writeNew, List.foldl_cons] at this ⊢
    constructor
    · intro n hn
      rcases List.mem_cons.1 hn with h | h
      · simp at h; obtain ⟨rfl, rfl⟩ := h
        rw [this.2 (fun n' hn' => hk.1 (List.mem_map.2 ⟨_, hn', rfl⟩))]
        have : k < t.inv.length := hb (n, k) (by simp)
        simp [writeOne, this]
      · exact this.1 n h
    · intro hn
      rw [this.2 (fun n' hn' => hn n' (List.mem_cons_of_mem _ hn'))]
      have : j ≠ k := fun e => hn m (by simp [e])
      simp [writeOne, this]

theorem writeNew_length (new : PyDict (Option String) Nat) (t : NameTable) :
    (writeNew t new).inv.length = t.inv.length := by
  induction new generalizing t with
  | nil => rfl
  | cons p new ih => simp only [writeNew, List.foldl_cons] at ih ⊢; rw [ih]; simp [writeOne]

theorem writeNew_nodup (new : PyDict (Option String) Nat) (t : NameTable)
    (hd : (PyDict.keys t.names).Nodup) : (PyDict.keys (writeNew t new).names).Nodup := by
  induction new generalizing t with
  | nil => exact hd
  | cons p new ih =>
    obtain ⟨n, k⟩ := p
    simp only [writeNew, List.foldl_cons] at ih ⊢
    apply ih
    cases n with
    | none => exact hd
    | some s => exact PyDict.nodup_set hd _ _

theorem writeNew_get? (new : PyDict (Option String) Nat) (t : NameTable)
    (hk : (new.map Prod.fst).Nodup) (s : String) :
    (∀ i, (some s, i) ∈ new → PyDict.get? (writeNew t new).names s = some i) ∧
    ((∀ i, (some s, i) ∉ new) →
      PyDict.get? (writeNew t new).names s = PyDict.get? t.names s) := by
  induction new generalizing t with
  | nil => simp [writeNew]
  | cons p new ih =>
    obtain ⟨m, j⟩ := p
    simp only [List.map_cons, List.nodup_cons] at hk
    have := ih (t := writeOne t (m, j)) hk.2
    simp only [writeNew, List.foldl_cons] at this ⊢
    constructor
    · intro i hi
      rcases List.mem_cons.1 hi with h | h
      · simp only [Prod.mk.injEq] at h; obtain ⟨rfl, rfl⟩ := h
        rw [this.2 (fun i' hi' => hk.1 (List.mem_map.2 ⟨_, hi', rfl⟩))]
        simp [writeOne]
      · exact this.1 i h
    · intro hi
      rw [this.2 (fun i' hi' => hi i' (List.mem_cons_of_mem _ hi'))]
      cases m with
      | none => rfl
      | some s' =>
        have : s' ≠ s := fun e => hi j (by simp [e])
        simp [writeOne, PyDict.get?_set, this]

theorem keys_ofPairs_mem {α β : Type} [DecidableEq α] (l : List (α × β)) (k : α) :
    k ∈ PyDict.keys (PyDict.ofPairs l) ↔ k ∈ l.map Prod.fst := by
  unfold PyDict.ofPairs
  have : ∀ d : PyDict α β, k ∈ PyDict.keys (l.foldl (fun d p => PyDict.set d p.1 p.2) d) ↔
      k ∈ PyDict.keys d ∨ k ∈ l.map Prod.fst := by
    induction l with
    | nil => simp
    | cons p l ih =>
      intro d
      rw [List.foldl_cons, ih, PyDict.mem_keys_set]
      simp only [List.map_cons, List.mem_cons]
      tauto
  rw [this]; simp [PyDict.keys]

theorem getIndex_str_of_get? {a : AxisSt} {t : NameTable} (ha : a.tbl = some t) {s : String}
    {i : Int} (h : a.getIndex (.str s) = .ok i) : PyDict.get? t.names s = some i.toNat := by
  simp only [AxisSt.getIndex, AxisSt.getIndexByName, ha] at h
  split at h
  · simp at h
  · cases hg : PyDict.get? t.names s with
    | none => simp [hg, Except.map] at h
    | some j => simp [hg, Except.map] at h; subst h; simp

theorem getIndex_bound {a : AxisSt} (hok : a.Ok) {id : Ident} {i : Int}
    (h : a.getIndex id = .ok i) : 0 ≤ i ∧ i < a.len := by
  cases id with
  | int k =>
    simp only [AxisSt.getIndex] at h
    split at h
    · simp at h
    · generalize hk' : (if k < 0 then (a.len : Int) + k else k) = k' at h
      split at h
      · simp at h
      · injection h with h; omega
  | str s =>
    have h' := h
    simp only [AxisSt.getIndex, AxisSt.getIndexByName] at h'
    split at h'
    · simp at h'
    · cases ht : a.tbl with
      | none => simp [ht, Except.map] at h'
      | some t =>
        have hg := getIndex_str_of_get? ht h
        have := (hok t ht).iff s i.toNat |>.2 hg
        have hl : i.toNat < t.inv.length := by
          by_contra hc; rw [List.getElem?_eq_none (by omega)] at this; simp at this
        rw [(hok t ht).length_inv] at hl
        have : 0 ≤ i := by
          cases hg' : PyDict.get? t.names s with
          | none => simp [ht, hg', Except.map] at h'
          | some j => simp [ht, hg', Except.map] at h'; omega
        omega
  | flt q => simp [AxisSt.getIndex] at h; split at h <;> simp at h

/-- What the resolving loop returns: valid indices with their current names. -/
theorem resolveOld_spec {a : AxisSt} {t : NameTable} (hok : a.Ok) (ha : a.tbl = some t)
    {old : List Ident} {olds : List (Option String × Nat)} (h : resolveOld a t old = .ok olds) :
    olds.length = old.length ∧ (∀ p ∈ olds, p.2 < a.len ∧ t.inv[p.2]? = some p.1) ∧
    olds.map (fun p => (.ok (p.2 : Int) : Res Int)) = old.map (fun id => a.getIndex id) := by
  induction old generalizing olds with
  | nil => simp [resolveOld] at h; subst h; simp
  | cons id old ih =>
    simp only [resolveOld, bind, Except.bind] at h
    cases hi : a.getIndex id with
    | error e => simp [hi] at h
    | ok i =>
      simp only [hi] at h
      cases hr : resolveOld a t old with
      | error e => simp [hr] at h
      | ok more =>
        simp only [hr, pure, Except.pure, Except.ok.injEq] at h
        obtain ⟨h1, h2, h3⟩ := ih hr
        have hb := getIndex_bound hok hi
        have hlt : i.toNat < t.inv.length := by rw [(hok t ha).length_inv]; omega
        have hj : t.inv[i.toNat]? = some ((t.inv[i.toNat]?).join) := by
          rw [List.getElem?_eq_getElem hlt]; rfl
        subst h
        refine ⟨by simp [h1], ?_, ?_⟩
        · intro p hp
          rcases List.mem_cons.1 hp with rfl | hp
          · refine ⟨by simp only; omega, ?_⟩
            simp only
            cases id with
            | str s =>
              simp only
              split
              · exact ((hok t ha).iff _ _).2 (getIndex_str_of_get? ha hi)
              · exact hj
            | int _ => exact hj
            | flt _ => exact hj
          · exact h2 p hp
        · simp only [List.map_cons, h3, hi, List.cons.injEq, and_true]
          congr 1; omega

theorem applyNew_eq (t : NameTable) (old new : PyDict (Option String) Nat) :
    applyNew t old new = writeNew ⟨old.foldl delOld t.names, t.inv⟩ new := rfl

/-- The heart of partial renaming. -/
theorem applyNew_ok {t : NameTable} {n : Nat} (ht : t.Ok n) {olds : List (Option String × Nat)}
    {new : List (Option String)} (hlen : new.length = olds.length)
    (hold : ∀ p ∈ olds, p.2 < n ∧ t.inv[p.2]? = some p.1)
    (hidx : (olds.map Prod.snd).Nodup) (hnew : new.Nodup)
    (hchk : checkNew t (PyDict.ofPairs (new.zip (olds.map Prod.snd))) = .ok ()) :
    (applyNew t (PyDict.ofPairs olds) (PyDict.ofPairs (new.zip (olds.map Prod.snd)))).Ok n ∧
    ∀ k, (∀ m, (m, k) ∈ new.zip (olds.map Prod.snd) →
        (applyNew t (PyDict.ofPairs olds)
          (PyDict.ofPairs (new.zip (olds.map Prod.snd)))).inv[k]? = some m) ∧
      (k ∉ olds.map Prod.snd → (applyNew t (PyDict.ofPairs olds)
          (PyDict.ofPairs (new.zip (olds.map Prod.snd)))).inv[k]? = t.inv[k]?) := by
  have hf : (new.zip (olds.map Prod.snd)).map Prod.fst = new :=
    List.map_fst_zip (by simp [hlen])
  have hs : (new.zip (olds.map Prod.snd)).map Prod.snd = olds.map Prod.snd :=
    List.map_snd_zip (by simp [hlen])
  have hz : PyDict.ofPairs (new.zip (olds.map Prod.snd)) = new.zip (olds.map Prod.snd) :=
    PyDict.ofPairs_nodup (by rw [hf]; exact hnew)
  rw [hz] at hchk ⊢
  rw [checkNew_ok_iff] at hchk
  rw [applyNew_eq]
  generalize hzz : new.zip (olds.map Prod.snd) = z at *
  set t1 : NameTable := ⟨(PyDict.ofPairs olds).foldl delOld t.names, t.inv⟩ with ht1
  have hzb : ∀ p ∈ z, p.2 < t1.inv.length := by
    intro p hp
    have : p.2 ∈ olds.map Prod.snd := by rw [← hs]; exact List.mem_map.2 ⟨p, hp, rfl⟩
    obtain ⟨q, hq, he⟩ := List.mem_map.1 this
    have := (hold q hq).1
    rw [ht1]; simp only; rw [ht.length_inv]; omega
  have hmem : ∀ k, (∃ m, (m, k) ∈ z) ↔ k ∈ olds.map Prod.snd := by
    intro k; rw [← hs]; simp [List.mem_map]
  have hinv := fun k => writeNew_inv z t1 (by rw [hs]; exact hidx) hzb k
  have hget := fun s => writeNew_get? z t1 (by rw [hf]; exact hnew) s
  have hdel : ∀ s, PyDict.get? t1.names s =
      if some s ∈ olds.map Prod.fst then none else PyDict.get? t.names s := by
    intro s
    rw [ht1]; simp only [foldl_del_get?, keys_ofPairs_mem]
  have holdname : ∀ s k, t.inv[k]? = some (some s) → (some s ∈ olds.map Prod.fst ↔
      k ∈ olds.map Prod.snd) := by
    intro s k hk
    constructor
    · intro h
      obtain ⟨q, hq, he⟩ := List.mem_map.1 h
      have h2 := (hold q hq).2
      rw [he] at h2
      have e1 := (ht.iff _ _).1 hk
      have e2 := (ht.iff _ _).1 h2
      rw [e1] at e2
      exact List.mem_map.2 ⟨q, hq, (Option.some.inj e2).symm⟩
    · intro h
      obtain ⟨q, hq, he⟩ := List.mem_map.1 h
      have h2 := (hold q hq).2
      rw [he, hk] at h2
      exact List.mem_map.2 ⟨q, hq, (Option.some.inj h2).symm⟩
  refine ⟨⟨?_, ?_, ?_⟩, ?_⟩
  · rw [writeNew_length, ht1]; exact ht.length_inv
  · apply writeNew_nodup; rw [ht1]; exact foldl_del_nodup _ _ ht.nodup
  · intro s k
    by_cases hk : ∃ m, (m, k) ∈ z
    · obtain ⟨m, hm⟩ := hk
      rw [(hinv k).1 m hm]
      constructor
      · intro h
        have : m = some s := Option.some.inj h
        subst this
        exact (hget s).1 k hm
      · intro h
        by_cases hsz : ∃ i, (some s, i) ∈ z
        · obtain ⟨i, hi⟩ := hsz
          rw [(hget s).1 i hi] at h
          have : i = k := Option.some.inj h
          subst this
          have h1 := (hinv i).1 m hm
          have h2 := (hinv i).1 (some s) hi
          rw [h1] at h2; exact h2
        · rw [(hget s).2 (fun i hi => hsz ⟨i, hi⟩), hdel] at h
          split at h
          · simp at h
          · next hno =>
            exact absurd ((holdname s k ((ht.iff _ _).2 h)).2 ((hmem k).1 ⟨m, hm⟩)) hno
    · rw [(hinv k).2 (fun m hm => hk ⟨m, hm⟩)]
      show t.inv[k]? = _ ↔ _
      have hkn : k ∉ olds.map Prod.snd := fun h => hk ((hmem k).2 h)
      by_cases hsz : ∃ i, (some s, i) ∈ z
      · obtain ⟨i, hi⟩ := hsz
        rw [(hget s).1 i hi]
        have hik : i ≠ k := fun e => hk ⟨some s, e ▸ hi⟩
        constructor
        · intro h
          exfalso
          have hg := (ht.iff _ _).1 h
          have hsk : s ∈ PyDict.keys t.names := PyDict.mem_keys.2 (by rw [hg]; rfl)
          have hj := hchk s i hi hsk
          have : t.inv[i]? = some (some s) := by
            cases hx : t.inv[i]? with
            | none => rw [hx] at hj; simp at hj
            | some y => rw [hx] at hj; simp at hj; rw [hj]
          have hg2 := (ht.iff _ _).1 this
          rw [hg] at hg2; exact hik (Option.some.inj hg2).symm
        · intro h; exact absurd (Option.some.inj h) hik
      · rw [(hget s).2 (fun i hi => hsz ⟨i, hi⟩), hdel, ht.iff]
        constructor
        · intro h
          rw [if_neg, h]
          intro hmem'
          exact hkn ((holdname s k ((ht.iff _ _).2 h)).1 hmem')
        · intro h; split at h
          · simp at h
          · exact h
  · intro k
    exact ⟨(hinv k).1, fun hk => (hinv k).2 (fun m hm => hk ((hmem k).1 ⟨m, hm⟩))⟩

end Nimble
