import Verif.Model.SyncAcc

/-!
# Synchronous accepts: C82

Every connection is returned by one accept or freed, in the order of arrival (`C82_once`).  An accept may be told that the
accepter is closed when it is not (`C82_closed_violated`), and may go on waiting while a connection is there
(`C82_wait_violated`); without interrupts the latter does not happen (`C82_wait_partial`).
-/

namespace Gensio.SyncAcc

/-- The connections that came while the accepter was synchronous. -/
def came (h : Hist) : List Nat := h.flatMap fun x =>
  match x with
  | (.conn io, .silent) => [io]
  | (.conn io, .freed _) => [io]
  | _ => []

/-- The connections that were returned or freed, in this order. -/
def gone (h : Hist) : List Nat := h.flatMap fun x =>
  match x.2 with
  | .ret _ (some io) => [io]
  | .freed l => l
  | _ => []

theorem came_snoc (h : Hist) (a : Act) (e : Ev) : came (h ++ [(a, e)]) = came h ++
    (match (a, e) with | (.conn io, .silent) => [io] | (.conn io, .freed _) => [io] | _ => []) := by
  simp only [came, List.flatMap_append, List.flatMap_singleton]

theorem gone_snoc (h : Hist) (a : Act) (e : Ev) : gone (h ++ [(a, e)]) = gone h ++
    (match e with | .ret _ (some io) => [io] | .freed l => l | _ => []) := by
  simp only [gone, List.flatMap_append, List.flatMap_singleton]

theorem list_inv {s : Acc} {h : Hist} (r : Run s h) : came h = gone h ++ s.ios ∧ (s.enabled = false → s.sync = false) := by
  induction r with
  | nil => simp [came, gone, Acc.init]
  | @next s t h a e r hs ih =>
    obtain ⟨ih, ih2⟩ := ih
    rw [came_snoc, gone_snoc, ih]
    cases a with
    | conn io =>
      simp only [Acc.step, Acc.conn, Option.some.injEq] at hs
      split at hs
      · obtain ⟨rfl, rfl⟩ := Prod.mk.inj hs; simpa using ih2
      · rename_i h1
        split at hs
        · rename_i h2; exact absurd (ih2 h2) h1
        · split at hs <;> obtain ⟨rfl, rfl⟩ := Prod.mk.inj hs <;> simpa [Acc.set] using ih2
    | accept i =>
      simp only [Acc.step, Acc.accept] at hs
      split at hs
      · split at hs <;> (injection hs with hs; obtain ⟨rfl, rfl⟩ := Prod.mk.inj hs)
        · rename_i e; rw [e]; simpa using ih2
        · rename_i e; simpa [Acc.set] using ih2
      · cases hs
    | wake i rv =>
      simp only [Acc.step, Acc.wake] at hs
      split at hs
      · cases hs
      · split at hs
        · injection hs with hs; obtain ⟨rfl, rfl⟩ := Prod.mk.inj hs; simpa [Acc.set] using ih2
        · split at hs
          · injection hs with hs; obtain ⟨rfl, rfl⟩ := Prod.mk.inj hs; simpa [Acc.set] using ih2
          · split at hs <;> (injection hs with hs; obtain ⟨rfl, rfl⟩ := Prod.mk.inj hs)
            · rename_i e _; rw [e]; simpa [Acc.set] using ih2
            · simpa [Acc.set] using ih2
    | shutdown =>
      simp only [Acc.step, Acc.shutdown, Option.some.injEq] at hs
      obtain ⟨rfl, rfl⟩ := Prod.mk.inj hs
      simp

/-- **C82, once and in order**: what accepts returned and what was freed is, in this order, the first part of the connections
that came; the rest is waiting. -/
theorem C82_once (s : Acc) (h : Hist) (r : Run s h) : ∃ l, came h = gone h ++ l ∧ (.shutdown ∈ h.map (·.1) → l = []) := by
  refine ⟨s.ios, (list_inv r).1, ?_⟩
  suffices k : .shutdown ∈ h.map (·.1) → s.ios = [] ∧ s.sync = false from fun e => (k e).1
  induction r with
  | nil => intro h; cases h
  | @next s t h a e r hs ih =>
    intro hm
    rw [List.map_append, List.mem_append] at hm
    cases a with
    | shutdown =>
      simp only [Acc.step, Acc.shutdown, Option.some.injEq] at hs
      obtain ⟨rfl, rfl⟩ := Prod.mk.inj hs
      simp
    | conn io =>
      obtain ⟨h1, h2⟩ := ih (by simpa using hm)
      simp only [Acc.step, Acc.conn, h2, if_true, Option.some.injEq] at hs
      obtain ⟨rfl, rfl⟩ := Prod.mk.inj hs; exact ⟨h1, h2⟩
    | accept i =>
      obtain ⟨h1, h2⟩ := ih (by simpa using hm)
      simp only [Acc.step, Acc.accept, h1] at hs
      split at hs
      · injection hs with hs; obtain ⟨rfl, rfl⟩ := Prod.mk.inj hs; simp [Acc.set, h1, h2]
      · cases hs
    | wake i rv =>
      obtain ⟨h1, h2⟩ := ih (by simpa using hm)
      simp only [Acc.step, Acc.wake, h1] at hs
      split at hs
      · cases hs
      · split at hs <;> (injection hs with hs; obtain ⟨rfl, rfl⟩ := Prod.mk.inj hs; simp [Acc.set, h1, h2])

/-- Enough threads have been woken for the connections, when any waits. -/
structure Inv (s : Acc) : Prop where
  nodup : s.accs.Nodup
  wait : ∀ i, i ∈ s.accs ↔ s.st i = .waiting
  woken : s.accs ≠ [] → ∃ w : List Nat, w.Nodup ∧ (∀ i ∈ w, s.st i = .woken) ∧ s.ios.length ≤ w.length

theorem Inv.step {s t : Acc} {a : Act} {e : Ev} (x : Inv s) (hs : s.step a = some (t, e))
    (hi : ∀ i rv, a = .wake i rv → rv = 0) : Inv t := by
  obtain ⟨x1, x2, x3⟩ := x
  cases a with
  | conn io =>
    simp only [Acc.step, Acc.conn, Option.some.injEq] at hs
    split at hs
    · obtain ⟨rfl, rfl⟩ := Prod.mk.inj hs; exact ⟨x1, x2, x3⟩
    · split at hs
      · obtain ⟨rfl, rfl⟩ := Prod.mk.inj hs; exact ⟨x1, x2, x3⟩
      · split at hs
        · rename_i h
          obtain ⟨rfl, rfl⟩ := Prod.mk.inj hs
          exact ⟨x1, x2, fun h' => absurd h h'⟩
        · rename_i i rest h
          obtain ⟨rfl, rfl⟩ := Prod.mk.inj hs
          rw [h] at x1 x2 x3
          have hn := List.nodup_cons.mp x1
          refine ⟨hn.2, ?_, ?_⟩
          · intro j
            simp only [Acc.set]
            split
            · rename_i e; subst e; simp [hn.1]
            · rename_i e; rw [← x2 j]; simp [e]
          · intro _
            obtain ⟨w, w1, w2, w3⟩ := x3 (by simp)
            have hiw : i ∉ w := by
              intro hm
              have := w2 i hm
              rw [(x2 i).1 (by simp)] at this; cases this
            refine ⟨i :: w, List.nodup_cons.mpr ⟨hiw, w1⟩, ?_, ?_⟩
            · intro j hj
              simp only [Acc.set]
              split
              · rfl
              · rename_i e; exact w2 j (by simpa [e] using hj)
            · simp only [Acc.set, List.length_append, List.length_cons, List.length_nil]; omega
  | accept i =>
    simp only [Acc.step, Acc.accept] at hs
    split at hs
    · rename_i hid
      split at hs
      · rename_i io rest h
        injection hs with hs; obtain ⟨rfl, rfl⟩ := Prod.mk.inj hs
        refine ⟨x1, x2, fun h' => ?_⟩
        obtain ⟨w, w1, w2, w3⟩ := x3 h'
        rw [h] at w3
        exact ⟨w, w1, w2, by simp only [List.length_cons] at w3 ⊢; omega⟩
      · rename_i h
        injection hs with hs; obtain ⟨rfl, rfl⟩ := Prod.mk.inj hs
        have hni : i ∉ s.accs := fun hm => by rw [(x2 i).1 hm] at hid; cases hid
        refine ⟨?_, ?_, ?_⟩
        · simp only [Acc.set]
          rw [List.nodup_append]
          refine ⟨x1, by simp, ?_⟩
          intro a ha b hb e
          simp only [List.mem_singleton] at hb
          subst hb; subst e; exact hni ha
        · intro j
          simp only [Acc.set, List.mem_append, List.mem_singleton]
          split
          · rename_i e; simp [e]
          · rename_i e; simp [e, x2 j]
        · intro _; exact ⟨[], by simp, by simp, by simp [Acc.set, h]⟩
    · cases hs
  | wake i rv =>
    have hrv : rv = 0 := hi i rv rfl
    subst hrv
    simp only [Acc.step, Acc.wake] at hs
    split at hs
    · cases hs
    · rename_i hid
      split at hs
      · rename_i hw
        injection hs with hs; obtain ⟨rfl, rfl⟩ := Prod.mk.inj hs
        refine ⟨x1.erase i, ?_, ?_⟩
        · intro j
          simp only [Acc.set]
          rw [x1.mem_erase_iff]
          split
          · rename_i e; simp [e]
          · rename_i e; simp [e, x2 j]
        · intro h'
          have hne : s.accs ≠ [] := by
            intro e; apply h'; simp [Acc.set, e]
          obtain ⟨w, w1, w2, w3⟩ := x3 hne
          refine ⟨w, w1, ?_, w3⟩
          intro j hj
          have := w2 j hj
          simp only [Acc.set]
          rw [if_neg (by rintro rfl; rw [hw] at this; cases this)]
          exact this
      · rename_i hw
        have hwk : s.st i = .woken := by
          cases h : s.st i with
          | idle => exact absurd h hid
          | waiting => exact absurd h hw
          | woken => rfl
        have hni : i ∉ s.accs := fun hm => by rw [(x2 i).1 hm] at hwk; cases hwk
        have hx2 : ∀ j, j ∈ s.accs ↔ (if j = i then St.idle else s.st j) = .waiting := by
          intro j
          split
          · rename_i e; simp [e, hni]
          · exact x2 j
        split at hs
        · rename_i hio
          injection hs with hs; obtain ⟨rfl, rfl⟩ := Prod.mk.inj hs
          exact ⟨x1, hx2, fun _ => ⟨[], by simp, by simp, by simp [Acc.set, hio]⟩⟩
        · rename_i io rest hio
          simp only [if_true] at hs
          injection hs with hs; obtain ⟨rfl, rfl⟩ := Prod.mk.inj hs
          refine ⟨x1, hx2, ?_⟩
          intro h'
          obtain ⟨w, w1, w2, w3⟩ := x3 h'
          refine ⟨w.erase i, w1.erase i, ?_, ?_⟩
          · intro j hj
            rw [w1.mem_erase_iff] at hj
            simp only [Acc.set, if_neg hj.1]
            exact w2 j hj.2
          · rw [hio] at w3
            simp only [Acc.set, List.length_erase, List.length_cons] at w3 ⊢
            split <;> omega
  | shutdown =>
    simp only [Acc.step, Acc.shutdown, Option.some.injEq] at hs
    obtain ⟨rfl, rfl⟩ := Prod.mk.inj hs
    refine ⟨by simp, ?_, fun h => absurd rfl h⟩
    intro j
    simp only [List.not_mem_nil, false_iff]
    split
    · simp
    · rename_i hj; rw [← x2 j]; exact hj

/-- **C82, no connection waits with an accept**, when waits are not interrupted: while some accept waits, at least as many
others have been woken and have not yet returned as connections wait.  Missing are interrupted waits. -/
theorem C82_wait_partial (s : Acc) (h : Hist) (r : Run s h) (hi : ∀ i rv e, (Act.wake i rv, e) ∈ h → rv = 0) :
    s.accs ≠ [] → ∃ w : List Nat, w.Nodup ∧ (∀ i ∈ w, s.st i = .woken) ∧ s.ios.length ≤ w.length := by
  have : Inv s := by
    induction r with
    | nil => exact ⟨by simp [Acc.init], by simp [Acc.init], by simp [Acc.init]⟩
    | @next s t h a e r hs ih =>
      refine (ih fun i rv e he => hi i rv e (List.mem_append_left _ he)).step hs ?_
      intro i rv ha
      subst ha
      exact hi i rv e (by simp)
  exact this.woken

/-- Executing steps. -/
def exec (s : Acc) : List Act → Option (Acc × Hist)
  | [] => some (s, [])
  | a :: l =>
    match s.step a with
    | none => none
    | some (t, e) => (exec t l).map fun p => (p.1, (a, e) :: p.2)

theorem exec_run {s : Acc} {h : Hist} (r : Run s h) {l : List Act} {t : Acc} {k : Hist}
    (e : exec s l = some (t, k)) : Run t (h ++ k) := by
  induction l generalizing s h k with
  | nil => simp only [exec, Option.some.injEq, Prod.mk.injEq] at e; obtain ⟨rfl, rfl⟩ := e; simpa using r
  | cons a l ih =>
    simp only [exec] at e
    split at e
    · cases e
    · rename_i u ev hs
      simp only [Option.map_eq_some_iff, Prod.mk.injEq] at e
      obtain ⟨⟨t', k'⟩, e1, rfl, rfl⟩ := e
      have := ih (r.next hs) e1
      simpa using this

/-- **C82 is false**: thread 1 waits and is woken for a connection; thread 2 calls before 1 has the lock and takes the
connection; 1 is told that the accepter is closed, which it is not. -/
theorem C82_closed_violated : ∃ s h, Run s h ∧ s.enabled = true ∧ (.wake 1 0, .ret eLocalClosed none) ∈ h
    ∧ .shutdown ∉ h.map (·.1) := by
  have h : (exec Acc.init [.accept 1, .conn 7, .accept 2, .wake 1 0]).any (fun p => decide (p.1.enabled = true)
      && decide ((.wake 1 0, .ret eLocalClosed none) ∈ p.2) && decide (.shutdown ∉ p.2.map (·.1))) = true := by
    decide +kernel
  rw [Option.any_eq_true] at h
  obtain ⟨⟨s, k⟩, e, h⟩ := h
  simp only [Bool.and_eq_true, decide_eq_true_eq] at h
  have r := exec_run .nil e
  exact ⟨s, k, by simpa using r, h.1.1, h.1.2, h.2⟩

/-- **C82 is false with interrupts**: threads 1 and 2 wait, 1 is woken for a connection but its wait ends by an interrupt; it
returns, the connection stays and nobody wakes 2. -/
theorem C82_wait_violated : ∃ s h, Run s h ∧ s.ios = [7] ∧ s.accs = [2] ∧ s.st 1 = .idle := by
  have h : (exec Acc.init [.accept 1, .accept 2, .conn 7, .wake 1 eInterrupted]).any (fun p => decide (p.1.ios = [7])
      && decide (p.1.accs = [2]) && decide (p.1.st 1 = .idle)) = true := by
    decide +kernel
  rw [Option.any_eq_true] at h
  obtain ⟨⟨s, k⟩, e, h⟩ := h
  simp only [Bool.and_eq_true, decide_eq_true_eq] at h
  have r := exec_run .nil e
  exact ⟨s, k, by simpa using r, h.1.1, h.1.2, h.2⟩

example : (exec Acc.init [.accept 1, .conn 7, .conn 8, .wake 1 0, .accept 1, .conn 9, .shutdown]).map
    (fun p => (came p.2, gone p.2)) = some ([7, 8, 9], [7, 8, 9]) := by decide +kernel

end Gensio.SyncAcc
