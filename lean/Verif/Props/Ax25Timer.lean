import Verif.Model.Ax25Timer
import Verif.Props.Ax25

/-!
# Timers of an AX.25 channel

C108: a running timer has a timer of the OS.  C109: the references of the timer.  C110: the time of T1.  C111: giving up.
-/
namespace Gensio.Ax25Timer

/-- The time the handler read. -/
def Hnd.time : Hnd → Nat
  | .called t | .at2 t | .at3 t | .last t => t

/-- Whether the handler is past its first lock section, and if so T1 is not yet due for it. -/
def inside (s : T) : Prop := ∃ h, s.hnd = some h ∧ ∀ t, h ≠ .called t

private theorem of_any {α : Type} {o : Option α} {P : α → Bool} (h : o.any P = true) : ∃ a, o = some a ∧ P a = true := by
  cases o with
  | none => cases h
  | some a => exact ⟨a, rfl, h⟩

/-- 1 or 0. -/
def one {α : Type} (o : Option α) : Nat := if o.isSome then 1 else 0

structure Inv (s : T) : Prop where
  pos : 0 < s.now
  past : ∀ h, s.hnd = some h → h.time ≤ s.now
  backed : s.hnd = none → s.state ≠ .closed → s.curr ≠ 0 → ∃ e, s.armed = some e ∧ e ≤ s.curr + s.late
  first : s.hnd = none → s.state = .link → s.t1 ≠ 0 → s.curr ≠ 0 ∧ s.curr ≤ s.t1
  due1 : ∀ h, s.hnd = some h → (∀ t, h ≠ .called t) → s.t1 = 0 ∨ h.time ≤ s.t1
  due2 : ∀ h, s.hnd = some h → (∀ t, h ≠ .called t) → (∀ t, h ≠ .at2 t) → s.t2 = 0 ∨ h.time ≤ s.t2
  due3 : ∀ t, s.hnd = some (.last t) → s.t3 = 0 ∨ t ≤ s.t3
  refs : one s.armed + one s.hnd ≤ s.refs

theorem stopTimer_some {s : T} (h : one s.armed + one s.hnd ≤ s.refs) : ∃ s', stopTimer s = some s' ∧ s'.armed = none ∧
    s' = { s with armed := none, curr := s'.curr, refs := s'.refs } ∧ one s.hnd ≤ s'.refs ∧ (s.hnd = none → s.armed = none → s'.curr = s.curr) ∧
    (s'.curr = 0 ∨ (s'.curr = s.curr ∧ s.armed = none)) := by
  unfold stopTimer
  split
  · cases ha : s.armed with
    | some e =>
      rw [ha] at h
      simp only [one, Option.isSome_some, if_true] at h
      simp only [deref]
      rw [if_neg (by omega)]
      refine ⟨_, rfl, rfl, rfl, ?_, by simp, .inl rfl⟩
      simp only [one]
      omega
    | none =>
      refine ⟨_, rfl, ha, by rw [← ha], ?_, by simp, .inr ⟨rfl, rfl⟩⟩
      omega
  · refine ⟨_, rfl, rfl, rfl, ?_, by simp, .inl (Classical.not_not.mp ‹¬ _›)⟩
    simp only at h ⊢
    omega

theorem checkNew_inv {s : T} (pos : 0 < s.now) (past : ∀ h, s.hnd = some h → h.time ≤ s.now)
    (backed : s.hnd = none → s.state ≠ .closed → s.curr ≠ 0 → ∃ e, s.armed = some e ∧ e ≤ s.curr + s.late) {v : Nat} (hv : s.now ≤ v)
    (first : s.hnd = none → s.state = .link → s.t1 ≠ 0 → (s.curr ≠ 0 ∧ s.curr ≤ s.t1) ∨ v ≤ s.t1)
    (due1 : ∀ h, s.hnd = some h → (∀ t, h ≠ .called t) → s.t1 = 0 ∨ h.time ≤ s.t1)
    (due2 : ∀ h, s.hnd = some h → (∀ t, h ≠ .called t) → (∀ t, h ≠ .at2 t) → s.t2 = 0 ∨ h.time ≤ s.t2)
    (due3 : ∀ t, s.hnd = some (.last t) → s.t3 = 0 ∨ t ≤ s.t3) (refs : one s.armed + one s.hnd ≤ s.refs) :
    ∃ s', checkNew s v = some s' ∧ Inv s' := by
  unfold checkNew
  split
  · rename_i hc
    exact ⟨s, rfl, pos, past, backed, fun _ h => absurd h (by rw [hc]; decide), due1, due2, due3, refs⟩
  · split
    · rename_i hc hcv
      refine ⟨s, rfl, pos, past, backed, fun h1 h2 h3 => ?_, due1, due2, due3, refs⟩
      rcases first h1 h2 h3 with h | h
      · exact h
      · exact ⟨hcv.1, by omega⟩
    · rename_i hc hcv
      obtain ⟨s', e, ha, hs, hr, _⟩ := stopTimer_some refs
      rw [e]
      simp only [Option.bind_some, startTimer]
      rw [if_neg (by simp [ha])]
      refine ⟨_, rfl, ?_⟩
      rw [hs]
      refine ⟨pos, past, fun _ _ _ => ⟨_, rfl, ?_⟩, fun h1 h2 h3 => ⟨by dsimp only; omega, ?_⟩, due1, due2, due3, ?_⟩
      · dsimp only; omega
      · rcases first h1 h2 h3 with h | h
        · dsimp only at h3 ⊢
          have := h.2
          have h1 := h.1
          have : ¬ v ≥ s.curr := fun hh => hcv ⟨h1, hh⟩
          omega
        · exact h
      · dsimp only
        simp only [one, Option.isSome_some, if_true] at hr ⊢
        omega

theorem step_inv {s : T} (I : Inv s) {o : Op} (hc : can s o = true) : ∃ s', step s o = some s' ∧ Inv s' := by
  obtain ⟨pos, past, backed, first, due1, due2, due3, refs⟩ := I
  cases o with
  | tick d =>
    refine ⟨_, rfl, by dsimp only; omega, fun h hh => ?_, backed, first, due1, due2, due3, refs⟩
    have := past h hh
    dsimp only; omega
  | start1 v =>
    refine checkNew_inv (s := { s with t1 := s.now + v }) pos past backed (by dsimp only; omega) (fun _ _ _ => .inr (by dsimp only; omega)) (fun h hh _ => ?_) due2 due3 refs
    have := past h hh
    dsimp only; omega
  | start2 v =>
    refine checkNew_inv (s := { s with t2 := s.now + v }) pos past backed (by dsimp only; omega) (fun a b c => .inl (first a b c)) due1 (fun h hh _ _ => ?_) due3 refs
    have := past h hh
    dsimp only; omega
  | start3 v =>
    refine checkNew_inv (s := { s with t3 := s.now + v }) pos past backed (by dsimp only; omega) (fun a b c => .inl (first a b c)) due1 due2 (fun h hh => ?_) refs
    have := past _ hh
    simp only [Hnd.time] at this
    dsimp only; omega
  | stop1 => exact ⟨_, rfl, pos, past, backed, fun _ _ h => absurd rfl h, fun _ _ _ => .inl rfl, due2, due3, refs⟩
  | stop2 => exact ⟨_, rfl, pos, past, backed, first, due1, fun _ _ _ _ => .inl rfl, due3, refs⟩
  | stop3 => exact ⟨_, rfl, pos, past, backed, first, due1, due2, fun _ _ => .inl rfl, refs⟩
  | prestart =>
    exact ⟨_, rfl, pos, past, fun _ _ h => absurd rfl h, fun _ _ h => absurd rfl h, fun _ _ _ => .inl rfl, fun _ _ _ _ => .inl rfl, fun _ _ => .inl rfl, refs⟩
  | ua =>
    exact ⟨_, rfl, pos, past, fun _ _ h => absurd rfl h, fun _ _ h => absurd rfl h, fun _ _ _ => .inl rfl, fun _ _ _ _ => .inl rfl, fun _ _ => .inl rfl, refs⟩
  | shut =>
    obtain ⟨s', e, ha, hs, hr, _, h0⟩ := stopTimer_some (s := { s with state := .other }) refs
    refine ⟨_, e, ?_⟩
    rw [hs]
    refine ⟨pos, past, fun h1 h2 h3 => ?_, fun _ h => (by cases h), due1, due2, due3, ?_⟩
    · rcases h0 with h0 | ⟨h0, h0'⟩
      · exact absurd h0 h3
      · simp only [can, decide_eq_true_eq] at hc
        rw [h0] at h3
        obtain ⟨e, he, _⟩ := backed h1 (by rw [hc]; decide) h3
        dsimp only at h0'
        rw [h0'] at he
        cases he
    · show 0 + one s.hnd ≤ s'.refs
      have : one s.hnd ≤ s'.refs := hr
      omega
  | openFail =>
    obtain ⟨s', e, ha, hs, hr, _, h0⟩ := stopTimer_some (s := { s with state := .closed }) refs
    refine ⟨_, e, ?_⟩
    rw [hs]
    refine ⟨pos, past, fun _ h => absurd rfl h, fun _ h => (by cases h), due1, due2, due3, ?_⟩
    show 0 + one s.hnd ≤ s'.refs
    have : one s.hnd ≤ s'.refs := hr
    omega
  | reportClose =>
    obtain ⟨s', e, ha, hs, hr, _, h0⟩ := stopTimer_some (s := { s with state := .closed }) refs
    refine ⟨_, by rw [step, e]; rfl, ?_⟩
    rw [hs]
    refine ⟨pos, past, fun _ _ h => absurd rfl h, fun _ _ h => absurd rfl h, fun _ _ _ => .inl rfl, fun _ _ _ _ => .inl rfl, fun _ _ => .inl rfl, ?_⟩
    show 0 + one s.hnd ≤ s'.refs
    have : one s.hnd ≤ s'.refs := hr
    omega
  | expire =>
    simp only [can] at hc
    split at hc
    · rename_i e h1 h2
      refine ⟨_, rfl, pos, fun h hh => ?_, fun h => (by cases h), fun h => (by cases h), fun h hh hn => ?_, fun h hh hn => ?_, fun t hh => ?_, ?_⟩
      · cases hh; exact Nat.le_refl _
      · cases hh; exact absurd rfl (hn _)
      · cases hh; exact absurd rfl (hn _)
      · cases hh
      · rw [h1, h2] at refs
        simpa [one] using refs
    · cases hc
  | enter =>
    simp only [can] at hc
    split at hc
    · rename_i t ht
      obtain ⟨s', e, ha, hs, hr, _, h0⟩ := stopTimer_some (s := s) refs
      simp only [step, ht, e, Option.bind_some]
      rw [ht] at hr
      simp only [one, Option.isSome_some, if_true] at hr
      split
      · rename_i hcl
        rw [deref, if_neg (by dsimp only; omega)]
        refine ⟨_, rfl, ?_⟩
        rw [hs] at hcl ⊢
        refine ⟨pos, fun h hh => (by cases hh), fun _ h => absurd hcl h, fun _ h => ?_, fun h hh => (by cases hh), fun h hh => (by cases hh), fun h hh => (by cases hh), ?_⟩
        · dsimp only at h hcl; rw [hcl] at h; cases h
        · simp [one]
      · refine ⟨_, rfl, ?_⟩
        rw [hs]
        have hp := past _ ht
        simp only [Hnd.time] at hp
        refine ⟨pos, fun h hh => ?_, fun h => (by cases h), fun h => (by cases h), fun h hh hn => ?_, fun h hh hn hm => ?_, fun t hh => ?_, ?_⟩
        · cases hh; exact hp
        · cases hh
          dsimp only [Hnd.time]
          split <;> omega
        · cases hh; exact absurd rfl (hm _)
        · cases hh
        · simp [one]; omega
    · cases hc
  | chk2 =>
    simp only [can] at hc
    split at hc
    · rename_i t ht
      simp only [step, ht]
      have hp := past _ ht
      have hd := due1 _ ht (by simp)
      rw [ht] at refs
      refine ⟨_, rfl, pos, fun h hh => ?_, fun h => (by cases h), fun h => (by cases h), fun h hh hn => ?_, fun h hh hn hm => ?_, fun t hh => ?_, refs⟩
      · cases hh; exact hp
      · cases hh; exact hd
      · cases hh
        dsimp only [Hnd.time]
        split <;> omega
      · cases hh
    · cases hc
  | chk3 =>
    simp only [can] at hc
    split at hc
    · rename_i t ht
      simp only [step, ht]
      have hp := past _ ht
      have hd := due1 _ ht (by simp)
      have hd2 := due2 _ ht (by simp) (by simp)
      rw [ht] at refs
      refine ⟨_, rfl, pos, fun h hh => ?_, fun h => (by cases h), fun h => (by cases h), fun h hh hn => ?_, fun h hh hn hm => ?_, fun t hh => ?_, refs⟩
      · cases hh; exact hp
      · cases hh; exact hd
      · cases hh; exact hd2
      · cases hh
        dsimp only
        split <;> omega
    · cases hc
  | finish =>
    simp only [can] at hc
    split at hc
    · rename_i t ht
      have hp := past _ ht
      have hd := due1 _ ht (by simp)
      have hd2 := due2 _ ht (by simp) (by simp)
      have hd3 := due3 _ ht
      simp only [Hnd.time] at hp hd hd2
      simp only [step, ht]
      rw [ht] at refs
      simp only [one, Option.isSome_some, if_true] at refs
      generalize hcc : (if s.t3 ≠ 0 ∧ s.t3 < (if s.t2 ≠ 0 ∧ s.t2 < s.t1 then s.t2 else s.t1) then s.t3 else if s.t2 ≠ 0 ∧ s.t2 < s.t1 then s.t2 else s.t1) = c
      have hc0 : c = 0 ∨ t ≤ c := by
        rw [← hcc]
        by_cases h2 : s.t2 ≠ 0 ∧ s.t2 < s.t1
        · rw [if_pos h2]; split <;> omega
        · rw [if_neg h2]; split <;> omega
      have hc1 : s.t1 ≠ 0 → c ≠ 0 ∧ c ≤ s.t1 := by
        intro h1
        rw [← hcc]
        by_cases h2 : s.t2 ≠ 0 ∧ s.t2 < s.t1
        · rw [if_pos h2]; split <;> omega
        · rw [if_neg h2]; split <;> omega
      split
      · rename_i hne
        simp only [startTimer]
        rw [if_neg (by simp)]
        simp only [Option.map_some, Option.bind_some, deref]
        rw [if_neg (by omega)]
        refine ⟨_, rfl, pos, fun h hh => (by cases hh), fun _ _ _ => ⟨_, rfl, ?_⟩, fun _ _ h3 => ?_, fun h hh => (by cases hh), fun h hh => (by cases hh), fun h hh => (by cases hh), ?_⟩
        · dsimp only; omega
        · exact hc1 h3
        · simp [one]; omega
      · rename_i hne
        simp only [Option.bind_some, deref]
        rw [if_neg (by omega)]
        refine ⟨_, rfl, pos, fun h hh => (by cases hh), fun _ _ h => absurd h hne, fun _ _ h3 => absurd (hc1 h3).1 hne, fun h hh => (by cases hh), fun h hh => (by cases hh), fun h hh => (by cases hh), ?_⟩
        simp only [one, Option.isSome_none, Bool.false_eq_true, if_false]
        omega
    · cases hc

theorem reach_inv {n : Nat} (hn : 0 < n) {s : T} (r : Reach n s) : Inv s := by
  induction r with
  | init =>
    refine ⟨hn, fun h hh => (by cases hh), fun _ h => absurd rfl h, fun _ h => (by cases h), fun h hh => (by cases hh), fun h hh => (by cases hh), fun h hh => (by cases hh), ?_⟩
    simp [one, init]
  | step _ hc e ih =>
    obtain ⟨_, e', I⟩ := step_inv ih hc
    rw [e] at e'
    cases e'
    exact I

/-- A list of possible steps is a run. -/
theorem run_reach {n : Nat} {s s' : T} (r : Reach n s) {os : List Op} (h : run s os = some s') : Reach n s' := by
  induction os generalizing s with
  | nil => cases h; exact r
  | cons o os ih =>
    simp only [run] at h
    split at h
    · rename_i hc
      cases he : step s o with
      | none => rw [he] at h; cases h
      | some s1 => rw [he] at h; exact ih (r.step hc he) h
    · cases h

/-! ### C108 -/

/-- C108: whatever steps come in whatever order, no assertion about a timer fails and no reference is released that was not taken. -/
theorem C108_safe {n : Nat} (hn : 0 < n) {s : T} (r : Reach n s) {o : Op} (hc : can s o = true) : step s o ≠ none := by
  obtain ⟨_, e, _⟩ := step_inv (reach_inv hn r) hc
  rw [e]
  simp

/-- C108, partial: while the channel is connected or connecting and T1 runs, the timer of the OS is set and expires no later than T1 does,
but for the time the handler itself has needed; or the handler runs.  Missing: T2 and T3. -/
theorem C108_t1_backed_partial {n : Nat} (hn : 0 < n) {s : T} (r : Reach n s) (hl : s.state = .link) (h1 : s.t1 ≠ 0) :
    s.hnd ≠ none ∨ ∃ e, s.armed = some e ∧ e ≤ s.t1 + s.late := by
  have I := reach_inv hn r
  by_cases hh : s.hnd = none
  · right
    obtain ⟨h2, h3⟩ := I.first hh hl h1
    obtain ⟨e, he, h4⟩ := I.backed hh (by rw [hl]; decide) h2
    exact ⟨e, he, by omega⟩
  · exact .inl hh

/-- C108, partial: so T1 is acted on when its time has come.  Missing: T2 and T3. -/
theorem C108_t1_fires_partial {n : Nat} (hn : 0 < n) {s : T} (r : Reach n s) (hl : s.state = .link) (h1 : s.t1 ≠ 0) (hh : s.hnd = none)
    (ht : s.t1 + s.late ≤ s.now) : ∃ s', run s [.expire, .enter] = some s' ∧ s'.t1 = 0 ∧ s'.hnd = some (.at2 s.now) := by
  rcases C108_t1_backed_partial hn r hl h1 with h | ⟨e, he, h⟩
  · exact absurd hh h
  · have hc : can s .expire = true := by
      simp only [can, hh, he]
      exact decide_eq_true (by omega)
    obtain ⟨s1, e1, I1⟩ := step_inv (reach_inv hn r) hc
    have e1' := e1
    simp only [step, Option.some.injEq] at e1
    have hc1 : can s1 .enter = true := by rw [← e1]; rfl
    obtain ⟨s2, e2, I2⟩ := step_inv I1 hc1
    refine ⟨s2, ?_, ?_⟩
    · simp only [run]
      rw [if_pos hc, e1']
      simp only [Option.bind_some]
      rw [if_pos hc1, e2]
      rfl
    · rw [← e1] at e2
      simp only [step, stopTimer] at e2
      split at e2
      · simp only [Option.bind_some] at e2
        rw [if_neg (by rw [hl]; decide)] at e2
        cases e2
        exact ⟨if_pos (by omega), rfl⟩
      · simp only [Option.bind_some] at e2
        rw [if_neg (by rw [hl]; decide)] at e2
        cases e2
        exact ⟨if_pos (by omega), rfl⟩

/-- A running timer for which no timer of the OS runs, and the handler does not either: only another start could help. -/
def Lost (s : T) (t : T → Nat) : Prop := s.state = .link ∧ t s ≠ 0 ∧ s.armed = none ∧ s.hnd = none ∧
  ∀ d, ∃ s', step s (.tick d) = some s' ∧ can s' .expire = false

theorem lost {s : T} {t : T → Nat} (h1 : s.state = .link) (h2 : t s ≠ 0) (h3 : s.armed = none) (h4 : s.hnd = none) : Lost s t :=
  ⟨h1, h2, h3, h4, fun d => ⟨_, rfl, by simp [can, h3]⟩⟩

/-- C108 violated: for all times of T1 and T3, a connection that is opened and then idle for the time of T1 has no timer left: T3 runs but
never expires, so that a peer that is gone is not noticed. -/
theorem C108_t3_lost_violated {n v1 v3 : Nat} (hn : 0 < n) (h : v1 < v3) :
    ∃ s, run (init n) [.prestart, .start1 v1, .stop1, .start3 v3, .tick v1, .expire, .enter, .chk2, .chk3, .finish] = some s ∧ Lost s T.t3 := by
  have a1 : n + v1 ≠ 0 := by omega
  have a2 : ¬ n + v3 ≤ n + v1 := by omega
  have a3 : n + v1 ≤ n + v3 := by omega
  refine ⟨⟨n + v1, .link, 0, 0, n + v3, 0, none, none, 0, 0⟩, ?_, lost rfl (by dsimp only; omega) rfl rfl⟩
  simp [run, can, init, step, reset, checkNew, stopTimer, startTimer, deref, a1, a2, a3, Nat.le_add_right, Nat.ne_of_gt hn]

/-- C108 violated: the same for T2: the acknowledgement of received data is never sent. -/
theorem C108_t2_lost_violated {n v1 v2 : Nat} (hn : 0 < n) (h : v2 ≤ v1) :
    ∃ s, run (init n) [.prestart, .start1 v1, .stop1, .tick v1, .start2 (v2 + 1), .expire, .enter, .chk2, .chk3, .finish] = some s ∧ Lost s T.t2 := by
  have a1 : n + v1 ≠ 0 := by omega
  have a2 : ¬ n + v1 + (v2 + 1) ≤ n + v1 := by omega
  have a3 : n + v1 ≤ n + v1 + (v2 + 1) := by omega
  refine ⟨⟨n + v1, .link, 0, n + v1 + (v2 + 1), 0, 0, none, none, 0, 0⟩, ?_, lost rfl (by dsimp only; omega) rfl rfl⟩
  simp [run, can, init, step, reset, checkNew, stopTimer, startTimer, deref, a1, a2, a3, Nat.le_add_right, Nat.ne_of_gt hn]

/-- With T1 running all three are kept: T1 started again by its own timeout, T3 earlier than it. -/
example : run (init 1000) [.prestart, .start1 8000, .tick 100, .start3 10000, .tick 8000, .expire, .enter, .start1 8000, .chk2, .chk3, .finish] =
    some ⟨9100, .link, 17100, 0, 11100, 11100, some 11100, none, 1, 0⟩ := by decide +kernel

/-! ### C109 -/

/-- Steps other than those that lose track of the timer: a UA that resets a connected channel, and an open while the handler runs or the
timer is set. -/
def Clean (s : T) (o : Op) : Prop := o ≠ .ua ∧ (o = .prestart → s.hnd = none ∧ s.armed = none)

/-- The states reached by clean steps. -/
inductive CReach (n : Nat) : T → Prop
  | init : CReach n (init n)
  | step {s s' : T} {o : Op} : CReach n s → can s o = true → Clean s o → step s o = some s' → CReach n s'

structure RInv (s : T) : Prop where
  pos : 0 < s.now
  refs : s.refs = one s.armed + one s.hnd
  curr : s.armed ≠ none → s.curr ≠ 0
  ins : ∀ h, s.hnd = some h → (∀ t, h ≠ .called t) → s.armed = none ∧ (s.curr = 1 ∨ s.state = .closed)

theorem stopTimer_clean {s s' : T} (h : stopTimer s = some s') (hr : s.refs = one s.armed + one s.hnd) (hcu : s.armed ≠ none → s.curr ≠ 0) :
    s'.armed = none ∧ s'.refs = one s.hnd ∧ s' = { s with armed := none, refs := s'.refs, curr := s'.curr } ∧
      (s.armed = none → s'.curr = s.curr) := by
  unfold stopTimer at h
  split at h
  · split at h
    · rename_i ha
      rw [ha] at hr
      simp only [one, Option.isSome_some, if_true] at hr
      simp only [deref] at h
      rw [if_neg (by omega)] at h
      cases h
      refine ⟨rfl, ?_, rfl, by simp [ha]⟩
      simp only [one]; omega
    · rename_i ha
      cases h
      rw [ha] at hr
      refine ⟨ha, ?_, by rw [← ha], by simp⟩
      simpa [one] using hr
  · rename_i hc
    cases h
    have ha : s.armed = none := by
      cases ha : s.armed with
      | none => rfl
      | some e => exact absurd (hcu (by simp [ha])) hc
    refine ⟨rfl, ?_, rfl, by simp⟩
    rw [ha] at hr
    simpa [one] using hr

theorem checkNew_clean {s s' : T} {v : Nat} (I : RInv s) (hv : s.now ≤ v) (h : checkNew s v = some s') : RInv s' := by
  obtain ⟨pos, refs, curr, ins⟩ := I
  unfold checkNew at h
  split at h
  · cases h; exact ⟨pos, refs, curr, ins⟩
  · rename_i hst
    split at h
    · cases h; exact ⟨pos, refs, curr, ins⟩
    · rename_i hcv
      cases hs : stopTimer s with
      | none => rw [hs] at h; cases h
      | some s1 =>
        obtain ⟨h1, h2, h3, h4⟩ := stopTimer_clean hs refs curr
        rw [hs] at h
        simp only [Option.bind_some, startTimer] at h
        rw [if_neg (by simp [h1])] at h
        cases h
        rw [h3]
        refine ⟨pos, ?_, fun _ => (by dsimp only; omega), fun h hh hn => ?_⟩
        · show s1.refs + 1 = 1 + one s.hnd
          omega
        · rcases (ins h hh hn).2 with hx | hx
          · exact absurd ⟨by omega, by omega⟩ hcv
          · exact absurd hx hst

theorem step_clean {s s' : T} {o : Op} (I : RInv s) (hc : can s o = true) (hcl : Clean s o) (h : step s o = some s') : RInv s' := by
  obtain ⟨pos, refs, curr, ins⟩ := I
  cases o with
  | tick d => cases h; exact ⟨by dsimp only; omega, refs, curr, ins⟩
  | start1 v => exact checkNew_clean (s := { s with t1 := s.now + v }) ⟨pos, refs, curr, ins⟩ (by dsimp only; omega) h
  | start2 v => exact checkNew_clean (s := { s with t2 := s.now + v }) ⟨pos, refs, curr, ins⟩ (by dsimp only; omega) h
  | start3 v => exact checkNew_clean (s := { s with t3 := s.now + v }) ⟨pos, refs, curr, ins⟩ (by dsimp only; omega) h
  | stop1 => cases h; exact ⟨pos, refs, curr, ins⟩
  | stop2 => cases h; exact ⟨pos, refs, curr, ins⟩
  | stop3 => cases h; exact ⟨pos, refs, curr, ins⟩
  | prestart =>
    obtain ⟨h1, h2⟩ := hcl.2 rfl
    cases h
    exact ⟨pos, refs, fun h => absurd h2 h, fun h hh => (by simp [reset, h1] at hh)⟩
  | ua => exact absurd rfl hcl.1
  | shut =>
    obtain ⟨h1, h2, h3, h4⟩ := stopTimer_clean h refs curr
    rw [h3]
    refine ⟨pos, by rw [h2]; simp [one], fun h => absurd rfl h, fun h hh hn => ⟨rfl, ?_⟩⟩
    obtain ⟨h5, h6⟩ := ins h hh hn
    simp only [can, decide_eq_true_eq] at hc
    rcases h6 with h6 | h6
    · exact .inl ((h4 h5).trans h6)
    · rw [hc] at h6; cases h6
  | openFail =>
    obtain ⟨h1, h2, h3, h4⟩ := stopTimer_clean h refs curr
    rw [h3]
    exact ⟨pos, by rw [h2]; simp [one], fun h => absurd rfl h, fun h hh hn => ⟨rfl, .inr rfl⟩⟩
  | reportClose =>
    simp only [step] at h
    cases hs : stopTimer { s with state := .closed } with
    | none => rw [hs] at h; cases h
    | some s1 =>
      rw [hs] at h
      cases h
      obtain ⟨h1, h2, h3, h4⟩ := stopTimer_clean hs refs curr
      rw [h3]
      exact ⟨pos, by simp only [reset]; rw [h2]; simp [one], fun h => absurd rfl h, fun h hh hn => ⟨rfl, .inr rfl⟩⟩
  | expire =>
    simp only [can] at hc
    split at hc
    · rename_i e h1 h2
      cases h
      refine ⟨pos, ?_, fun h => absurd rfl h, fun h hh hn => ?_⟩
      · rw [h1, h2] at refs
        simpa [one] using refs
      · cases hh; exact absurd rfl (hn _)
    · cases hc
  | enter =>
    simp only [can] at hc
    split at hc
    · rename_i t ht
      simp only [step, ht] at h
      cases hs : stopTimer s with
      | none => rw [hs] at h; cases h
      | some s1 =>
        obtain ⟨h1, h2, h3, h4⟩ := stopTimer_clean hs refs curr
        rw [hs] at h
        simp only [Option.bind_some] at h
        split at h
        · simp only [deref] at h
          split at h
          · cases h
          · cases h
            rw [h3, ht] at *
            refine ⟨pos, ?_, fun h => absurd rfl h, fun h hh => (by cases hh)⟩
            rw [h2]; simp [one]
        · cases h
          rw [h3]
          refine ⟨pos, ?_, fun h => absurd rfl h, fun h hh _ => ⟨rfl, .inl rfl⟩⟩
          rw [ht] at h2
          rw [h2]; simp [one]
    · cases hc
  | chk2 =>
    simp only [can] at hc
    split at hc
    · rename_i t ht
      simp only [step, ht] at h
      cases h
      have := ins _ ht (by simp)
      rw [ht] at refs
      exact ⟨pos, refs, curr, fun h hh _ => this⟩
    · cases hc
  | chk3 =>
    simp only [can] at hc
    split at hc
    · rename_i t ht
      simp only [step, ht] at h
      cases h
      have := ins _ ht (by simp)
      rw [ht] at refs
      exact ⟨pos, refs, curr, fun h hh _ => this⟩
    · cases hc
  | finish =>
    simp only [can] at hc
    split at hc
    · rename_i t ht
      have hi := ins _ ht (by simp)
      simp only [step, ht] at h
      rw [ht, hi.1] at refs
      generalize (if s.t3 ≠ 0 ∧ s.t3 < (if s.t2 ≠ 0 ∧ s.t2 < s.t1 then s.t2 else s.t1) then s.t3 else if s.t2 ≠ 0 ∧ s.t2 < s.t1 then s.t2 else s.t1) = c at h
      simp only [one, Option.isSome_some, Option.isSome_none, Bool.false_eq_true, if_false, if_true] at refs
      split at h
      · rename_i hne
        simp only [startTimer] at h
        rw [if_neg (by simp)] at h
        simp only [Option.map_some, Option.bind_some, deref] at h
        rw [if_neg (by omega)] at h
        cases h
        refine ⟨pos, ?_, fun _ => hne, fun h hh => (by cases hh)⟩
        simp only [one]; simp; omega
      · simp only [Option.bind_some, deref] at h
        rw [if_neg (by omega)] at h
        cases h
        refine ⟨pos, ?_, fun h => absurd hi.1 h, fun h hh => (by cases hh)⟩
        rw [hi.1]; simp [one]; omega
    · cases hc

/-- C109, partial: the references taken for the timer are those of the timer set and of the running handler, so that a channel without
either has none.  Missing: runs with a step that is not clean. -/
theorem C109_refs_partial {n : Nat} (hn : 0 < n) {s : T} (r : CReach n s) :
    s.refs = (if s.armed.isSome then 1 else 0) + (if s.hnd.isSome then 1 else 0) := by
  have : RInv s := by
    induction r with
    | init => exact ⟨hn, rfl, fun h => absurd rfl h, fun h hh => (by cases hh)⟩
    | step _ hc hcl e ih => exact step_clean ih hc hcl e
  exact this.refs

/-- References that belong to nothing. -/
def surplus (s : T) : Nat := s.refs - ((if s.armed.isSome then 1 else 0) + (if s.hnd.isSome then 1 else 0))

/-- C109 violated: for all times, a second UA for a connected channel loses the reference of the timer.  After the close nothing is left
but the reference, so the channel is never freed. -/
theorem C109_ua_leak_violated {n v1 v3 : Nat} (hn : 0 < n) (h : v1 ≤ v3) :
    run (init n) [.prestart, .start1 v1, .stop1, .start3 v3, .ua, .shut, .reportClose] = some ⟨n, .closed, 0, 0, 0, 0, none, none, 1, 0⟩ := by
  have a1 : n + v1 ≠ 0 := by omega
  have a3 : n + v1 ≤ n + v3 := by omega
  simp [run, can, init, step, reset, checkNew, stopTimer, startTimer, deref, a1, a3, Nat.ne_of_gt hn]

/-- C109 violated: a channel that is opened again in the close callback, which the handler of T1 has called after the last retry of the DISC,
has a reference too many from then on. -/
theorem C109_reopen_leak_violated {n v : Nat} (hn : 0 < n) :
    run (init n) [.prestart, .start1 v, .tick v, .expire, .enter, .shut, .reportClose, .prestart, .start1 v, .chk2, .chk3, .finish, .shut, .reportClose] =
      some ⟨n + v, .closed, 0, 0, 0, 0, none, none, 1, 0⟩ := by
  have a1 : n + v ≠ 0 := by omega
  have a2 : n + v + v ≠ 0 := by omega
  simp [run, can, init, step, reset, checkNew, stopTimer, startTimer, deref, a1, Nat.ne_of_gt hn]

theorem surplus_stop {s s' : T} (h : stopTimer s = some s') : surplus s ≤ surplus s' := by
  unfold stopTimer at h
  split at h
  · split at h
    · rename_i ha
      simp only [deref] at h
      split at h
      · cases h
      · cases h
        simp only [surplus, ha]
        simp
        omega
    · cases h; exact Nat.le_refl _
  · cases h
    simp only [surplus]
    simp
    omega

/-- C109: such a reference is never released, whatever comes. -/
theorem C109_leak_stays {n : Nat} (hn : 0 < n) {s s' : T} (r : Reach n s) {o : Op} (hc : can s o = true) (h : step s o = some s') : surplus s ≤ surplus s' := by
  have I := reach_inv hn r
  have hchk : ∀ {s s' : T} {v : Nat}, checkNew s v = some s' → surplus s ≤ surplus s' := by
    intro s s' v h
    unfold checkNew at h
    split at h
    · cases h; exact Nat.le_refl _
    · split at h
      · cases h; exact Nat.le_refl _
      · cases hs : stopTimer s with
        | none => rw [hs] at h; cases h
        | some s1 =>
          have := surplus_stop hs
          rw [hs] at h
          simp only [Option.bind_some, startTimer] at h
          split at h
          · cases h
          · cases h
            refine Nat.le_trans this ?_
            simp only [surplus]
            simp
            omega
  cases o with
  | tick d => cases h; exact Nat.le_refl _
  | start1 v => exact hchk (s := { s with t1 := s.now + v }) h
  | start2 v => exact hchk (s := { s with t2 := s.now + v }) h
  | start3 v => exact hchk (s := { s with t3 := s.now + v }) h
  | stop1 => cases h; exact Nat.le_refl _
  | stop2 => cases h; exact Nat.le_refl _
  | stop3 => cases h; exact Nat.le_refl _
  | prestart => cases h; exact Nat.le_refl _
  | ua => cases h; exact Nat.le_refl _
  | shut => exact surplus_stop (s := { s with state := .other }) h
  | openFail => exact surplus_stop (s := { s with state := .closed }) h
  | reportClose =>
    simp only [step] at h
    cases hs : stopTimer { s with state := .closed } with
    | none => rw [hs] at h; cases h
    | some s1 =>
      rw [hs] at h
      cases h
      have := surplus_stop (s := { s with state := .closed }) hs
      exact this
  | expire =>
    simp only [can] at hc
    split at hc
    · rename_i e h1 h2
      cases h
      simp [surplus, h1, h2]
    · cases hc
  | enter =>
    simp only [can] at hc
    split at hc
    · rename_i t ht
      simp only [step, ht] at h
      cases hs : stopTimer s with
      | none => rw [hs] at h; cases h
      | some s1 =>
        have := surplus_stop hs
        obtain ⟨_, e, _, h3, _⟩ := stopTimer_some I.refs
        rw [hs] at e
        cases e
        have h3 : s1.hnd = s.hnd := by rw [h3]
        rw [hs] at h
        simp only [Option.bind_some] at h
        refine Nat.le_trans this ?_
        split at h
        · simp only [deref] at h
          split at h
          · cases h
          · cases h
            simp only [surplus, h3, ht]
            simp
            omega
        · cases h
          simp [surplus, h3, ht]
    · cases hc
  | chk2 =>
    simp only [can] at hc
    split at hc
    · rename_i t ht
      simp only [step, ht] at h
      cases h
      simp [surplus, ht]
    · cases hc
  | chk3 =>
    simp only [can] at hc
    split at hc
    · rename_i t ht
      simp only [step, ht] at h
      cases h
      simp [surplus, ht]
    · cases hc
  | finish =>
    simp only [can] at hc
    split at hc
    · rename_i t ht
      simp only [step, ht] at h
      generalize (if s.t3 ≠ 0 ∧ s.t3 < (if s.t2 ≠ 0 ∧ s.t2 < s.t1 then s.t2 else s.t1) then s.t3 else if s.t2 ≠ 0 ∧ s.t2 < s.t1 then s.t2 else s.t1) = c at h
      split at h
      · simp only [startTimer] at h
        rw [if_neg (by simp)] at h
        simp only [Option.map_some, Option.bind_some, deref] at h
        split at h
        · cases h
        · cases h
          simp only [surplus, ht]
          simp
          omega
      · simp only [Option.bind_some, deref] at h
        split at h
        · cases h
        · cases h
          simp only [surplus, ht]
          simp
          omega
    · cases hc

/-- A clean session: opened, T1 expires once, closed: no reference is left. -/
example : run (init 1000) [.prestart, .start1 8000, .tick 8000, .expire, .enter, .start1 8000, .chk2, .chk3, .finish, .stop1, .start3 30000, .shut, .reportClose] =
    some ⟨9000, .closed, 0, 0, 0, 0, none, none, 0, 0⟩ := by decide +kernel

/-! ### C110 -/

/-- The new smoothed time, when nothing overflows. -/
theorem recalc_eq {r : Rtt} (h0 : r.retry = 0) (hv : r.t1v = 2 * r.srt) (hs : r.srt < 268435456) (now : Nat) (e : Bool) :
    recalc r now e = some { r with srt := 7 * r.srt / 8 + 2 * r.srt / 8 - min (r.t1 - now) (2 * r.srt) / 8,
                                   t1v := 2 * (7 * r.srt / 8 + 2 * r.srt / 8 - min (r.t1 - now) (2 * r.srt) / 8) } := by
  unfold recalc
  simp only
  rw [if_pos h0, hv]
  have hd : min (r.t1 - now) (2 * r.srt) ≤ 2 * r.srt := Nat.min_le_right _ _
  generalize min (r.t1 - now) (2 * r.srt) = d at hd
  have hd8 : d / 8 ≤ 2 * r.srt / 8 := Nat.div_le_div_right hd
  have e1 : ((7 * r.srt % 4294967296 / 8 + 2 * r.srt / 8) % 4294967296 + 4294967296 - d / 8) % 4294967296 =
      7 * r.srt / 8 + 2 * r.srt / 8 - d / 8 := by
    rw [Nat.mod_eq_of_lt (a := 7 * r.srt) (by omega), Nat.mod_eq_of_lt (a := 7 * r.srt / 8 + 2 * r.srt / 8) (by omega),
      show 7 * r.srt / 8 + 2 * r.srt / 8 + 4294967296 - d / 8 = 7 * r.srt / 8 + 2 * r.srt / 8 - d / 8 + 4294967296 from by omega, Nat.add_mod_right,
      Nat.mod_eq_of_lt (by omega)]
  rw [e1]
  have e2 : (7 * r.srt / 8 + 2 * r.srt / 8 - d / 8) * 2 % 4294967296 = 2 * (7 * r.srt / 8 + 2 * r.srt / 8 - d / 8) := by omega
  rw [e2]

/-- C110, partial: an acknowledgement while T1 runs makes the smoothed time seven eighths of what it was and one eighth of the time since
T1 was started, to 2 milliseconds; T1 is twice that.  Missing: acknowledgements while T1 does not run, times below 2 milliseconds, and retries. -/
theorem C110_smooth_partial {r : Rtt} (h0 : r.retry = 0) (hv : r.t1v = 2 * r.srt) (hs : r.srt < 268435456) {started now : Nat}
    (hst : r.t1 = started + r.t1v) (h1 : started ≤ now) (h2 : now ≤ r.t1) :
    ∃ r', recalc r now false = some r' ∧ r'.t1v = 2 * r'.srt ∧
      8 * r'.srt < 7 * r.srt + (now - started) + 16 ∧ 7 * r.srt + (now - started) < 8 * r'.srt + 16 := by
  refine ⟨_, recalc_eq h0 hv hs now false, rfl, ?_, ?_⟩
  · have : min (r.t1 - now) (2 * r.srt) = r.t1 - now := by omega
    dsimp only
    rw [this]
    omega
  · have : min (r.t1 - now) (2 * r.srt) = r.t1 - now := by omega
    dsimp only
    rw [this]
    omega

/-- A time of 4 seconds and an answer after 1 second: 3.625 seconds. -/
example : recalc ⟨4000, 8000, 101000, 0⟩ 94000 false = some ⟨3625, 7250, 101000, 0⟩ := by decide

/-- An acknowledgement while T1 does not run. -/
theorem ackAll_idle {r : Rtt} (h0 : r.retry = 0) (hv : r.t1v = 2 * r.srt) (hs : r.srt < 268435456) (h1 : r.t1 = 0) (now : Nat) :
    ackAll r now = some ⟨7 * r.srt / 8 + 2 * r.srt / 8, 2 * (7 * r.srt / 8 + 2 * r.srt / 8), 0, 0⟩ := by
  unfold ackAll
  rw [recalc_eq h0 hv hs, h1, h0]
  simp

/-- C110 violated: frames received while nothing is sent increase the time of T1 without bound (but for the overflow): any time is reached. -/
theorem C110_idle_growth_violated (bound : Nat) (hb : bound ≤ 268435456) : ∀ {r : Rtt}, r.retry = 0 → r.t1v = 2 * r.srt → 16 ≤ r.srt → r.t1 = 0 →
    ∃ n, n ≤ bound ∧ ∀ times : List Nat, times.length = n → ∃ r', acks r times = some r' ∧ bound ≤ r'.srt := by
  suffices key : ∀ k (r : Rtt), r.retry = 0 → r.t1v = 2 * r.srt → 16 ≤ r.srt → r.t1 = 0 → bound - r.srt = k →
      ∃ n, n ≤ k ∧ ∀ times : List Nat, times.length = n → ∃ r', acks r times = some r' ∧ bound ≤ r'.srt by
    intro r a b c d
    obtain ⟨n, h1, h2⟩ := key _ r a b c d rfl
    exact ⟨n, by omega, h2⟩
  intro k
  induction k using Nat.strongRecOn with
  | ind k ih =>
    intro r a b c d hk
    by_cases hd : bound ≤ r.srt
    · exact ⟨0, by omega, fun ts ht => ⟨r, by rw [List.length_eq_zero_iff.mp ht]; rfl, hd⟩⟩
    · obtain ⟨n, h1, h2⟩ := ih (bound - (7 * r.srt / 8 + 2 * r.srt / 8)) (by omega)
        ⟨7 * r.srt / 8 + 2 * r.srt / 8, 2 * (7 * r.srt / 8 + 2 * r.srt / 8), 0, 0⟩ rfl rfl (by dsimp only; omega) rfl rfl
      refine ⟨n + 1, by omega, fun ts ht => ?_⟩
      cases ts with
      | nil => cases ht
      | cons t ts =>
        obtain ⟨r', e, hr⟩ := h2 ts (by simpa using ht)
        refine ⟨r', ?_, hr⟩
        rw [acks, ackAll_idle a b (by omega) d]
        exact e

/-- C110 violated: with the default of 4 seconds, 60 frames received while nothing is sent make T1 longer than 2 hours. -/
theorem C110_idle_hours_violated (times : List Nat) (h : times.length = 60) :
    ∃ r, acks ⟨4000, 8000, 0, 0⟩ times = some r ∧ 7200000 ≤ r.t1v := by
  have key : ∀ (ts : List Nat) (r : Rtt), r.t1 = 0 → acks r ts = acks r (List.replicate ts.length 0) := by
    intro ts
    induction ts with
    | nil => intros; rfl
    | cons t ts ih =>
      intro r h
      have e : ackAll r t = ackAll r 0 := by
        unfold ackAll recalc
        simp only [h, Nat.zero_sub]
      simp only [acks, List.length_cons, List.replicate_succ]
      rw [e]
      cases ha : ackAll r 0 with
      | none => rfl
      | some r1 =>
        simp only [Option.bind_some]
        refine ih r1 ?_
        unfold ackAll at ha
        simp only [Option.map_eq_some_iff] at ha
        obtain ⟨_, _, rfl⟩ := ha
        rfl
  rw [key times _ rfl, h]
  have : (acks ⟨4000, 8000, 0, 0⟩ (List.replicate 60 0)).any (fun r => decide (7200000 ≤ r.t1v)) = true := by decide +kernel
  exact of_any this |>.imp fun r h => ⟨h.1, of_decide_eq_true h.2⟩

/-- C110 violated: answers within a millisecond bring the time of T1 to 0. -/
theorem C110_fast_zero_violated : ∀ (s : Nat), s < 268435456 → ∃ n, n ≤ s ∧ ∀ times : List Nat, times.length = n → ∀ t1,
    ∃ r', exchanges ⟨s, 2 * s, t1, 0⟩ (times.map fun t => (t, t)) = some r' ∧ r'.srt = 0 ∧ r'.t1v = 0 := by
  intro s
  induction s using Nat.strongRecOn with
  | ind s ih =>
    intro hs
    by_cases h0 : s = 0
    · subst h0
      exact ⟨0, by omega, fun ts ht t1 => ⟨⟨0, 0, t1, 0⟩, by rw [List.length_eq_zero_iff.mp ht]; rfl, rfl, rfl⟩⟩
    · obtain ⟨n, h1, h2⟩ := ih (7 * s / 8) (by omega) (by omega)
      refine ⟨n + 1, by omega, fun ts ht t1 => ?_⟩
      cases ts with
      | nil => cases ht
      | cons t ts =>
        obtain ⟨r', e, hr⟩ := h2 ts (by simpa using ht) 0
        refine ⟨r', ?_, hr⟩
        simp only [List.map_cons, exchanges, ackAll, startT1]
        rw [recalc_eq rfl rfl hs]
        have : min (t + 2 * s - t) (2 * s) = 2 * s := by omega
        dsimp only
        rw [this]
        have : 7 * s / 8 + 2 * s / 8 - 2 * s / 8 = 7 * s / 8 := by omega
        rw [this]
        exact e

/-- C110 violated: and it stays 0: T1 then expires the moment it is started, whatever the answers, and after a retry too. -/
theorem C110_zero_stays_violated (a b retry : Nat) (t1 : Nat) (e : Bool) (hr : retry < 30) :
    (startT1 ⟨0, 0, t1, retry⟩ a).t1 = a ∧ recalc (startT1 ⟨0, 0, t1, retry⟩ a) b e = some ⟨0, 0, a, retry⟩ := by
  refine ⟨rfl, ?_⟩
  unfold recalc startT1
  by_cases h0 : retry = 0
  · subst h0; simp
  · simp only
    rw [if_neg h0]
    cases e with
    | false => rfl
    | true =>
      rw [if_pos rfl, if_neg (by omega)]
      simp

/-- C110 violated: with 30 retries or more configured, the time for the 30th retry of the SABM is undefined; with the default time of 4 seconds it is
0 from the 26th on. -/
theorem C110_backoff_violated : (∀ srt t1v t1 now, recalc ⟨srt, t1v, t1, 30⟩ now true = none) ∧
    ∀ t1v t1 now, recalc ⟨4000, t1v, t1, 26⟩ now true = some ⟨4000, 0, t1, 26⟩ := by
  refine ⟨fun _ _ _ _ => by simp [recalc], fun _ _ _ => by simp [recalc]⟩

end Gensio.Ax25Timer

namespace Gensio.Ax25

/-! ### C111 -/

/-- The states in which T1 does something. -/
def alive (c : Chan) : Bool := c.state = .inOpen || c.state = .opn || c.state = .drain || c.state = .inClose

/-- An open connection of a station with no retries configured. -/
def exPoll : Option Chan := (exOpen { exConf with maxRetries := 0 } [.t1, .tx .full])

theorem sendCr_eq (c : Chan) (cmd : Cmd) (pf isCmd : Bool) (x : List UInt8) : ∃ q, sendCr c cmd pf isCmd x = { c with cmdrsp := q } := by
  unfold sendCr
  split
  · exact ⟨_, rfl⟩
  · exact ⟨_, rfl⟩

theorem sendAck_eq (c : Chan) (pf isCmd : Bool) : ∃ q, sendAck c pf isCmd = { c with ackPending := 0, cmdrsp := q } := by
  unfold sendAck
  simp only
  split
  · exact ⟨c.cmdrsp, rfl⟩
  · split
    · exact ⟨_, rfl⟩
    · exact sendCr_eq _ _ _ _ _

/-- C111 violated: with no retries configured, a connected station that hears nothing polls for ever: however often T1 expires, the
connection stays. -/
theorem C111_no_retries_violated : ∃ c, exPoll = some c ∧ ∀ n, ∃ c', run c (List.replicate n .t1) = some c' ∧ c'.state = .opn := by
  have h : exPoll.any (fun c => decide (c.state = .opn ∧ c.pollPending = true ∧ c.maxRetries = 0 ∧ c.retryCount ≠ 0)) = true := by decide +kernel
  obtain ⟨c, e, hc⟩ := Gensio.Ax25Timer.of_any h
  refine ⟨c, e, fun n => ?_⟩
  replace hc := of_decide_eq_true hc
  clear h e
  induction n generalizing c with
  | zero => exact ⟨c, rfl, hc.1⟩
  | succ n ih =>
    obtain ⟨h1, h2, h3, h4⟩ := hc
    obtain ⟨q, hq⟩ := sendAck_eq { c with retryCount := c.retryCount + 1 } true true
    have h5 : t1 c = some (sendAck { c with retryCount := c.retryCount + 1 } true true) := by
      have h6 : ¬ c.retryCount = c.maxRetries := by omega
      unfold t1
      split <;> rename_i hst
      · rw [h1] at hst; cases hst
      · rw [if_pos h2, if_neg h6]
      · rw [if_pos h2, if_neg h6]
      · rw [h1] at hst; cases hst
      · rename_i h7 _ _
        exact absurd h1 (by assumption)
    rw [hq] at h5
    obtain ⟨c', e', hs⟩ := ih { c with retryCount := c.retryCount + 1, ackPending := 0, cmdrsp := q } ⟨h1, h2, h3, by simp⟩
    refine ⟨c', ?_, hs⟩
    rw [List.replicate_succ, run, step, h5]
    exact e'

/-- How often T1 can expire before the station gives up. -/
def patience (c : Chan) : Nat := if (c.state = .opn ∨ c.state = .drain) ∧ c.pollPending = false then c.maxRetries else c.maxRetries - c.retryCount

structure Waiting (c : Chan) : Prop where
  some_retries : 1 ≤ c.maxRetries
  below : (c.state = .opn ∨ c.state = .drain) → c.pollPending = true → c.retryCount ≤ c.maxRetries
  sent : c.sendLen = 0

theorem moveToClosed_eq {c c' : Chan} (h : moveToClosed c = some c') : c' = { c with inChans := false } := by
  unfold moveToClosed at h
  split at h
  · cases h; rfl
  · cases h

theorem doErrClose_dead {c c' : Chan} (h : doErrClose c = some c') : alive c' = false ∧ c'.sendLen = c.sendLen := by
  unfold doErrClose at h
  have := moveToClosed_eq h
  subst this
  split <;> simp [alive]

theorem childErr_dead {c c' : Chan} {e : Nat} (hi : c.inChans = true) (h : childErr c e = some c') : alive c' = false ∧ c'.sendLen = c.sendLen := by
  unfold childErr at h
  rw [if_pos hi] at h
  have := doErrClose_dead h
  exact this

/-- Whether an event is an expiry of T1. -/
def isT1 : Ev → Bool
  | .t1 => true
  | _ => false

/-- The events of a station that hears nothing and does nothing. -/
def silent : Ev → Bool
  | .t1 | .t2 | .tx _ => true
  | _ => false

theorem tx_waiting {c c' : Chan} {r : LlRes} (hs : c.sendLen = 0) (h : step c (.tx r) = some c') :
    c'.sendLen = 0 ∧ (alive c' = false ∨ (c'.state = c.state ∧ c'.retryCount = c.retryCount ∧ c'.maxRetries = c.maxRetries ∧ c'.pollPending = c.pollPending)) := by
  have skip : ∀ {c c' : Chan}, c.sendLen = 0 → skipCmdrsp c = some c' → c'.sendLen = 0 ∧ (alive c' = false ∨
      (c'.state = c.state ∧ c'.retryCount = c.retryCount ∧ c'.maxRetries = c.maxRetries ∧ c'.pollPending = c.pollPending)) := by
    intro c c' hs h
    unfold skipCmdrsp at h
    simp only at h
    split at h
    · have := doErrClose_dead h
      exact ⟨this.2.trans hs, .inl this.1⟩
    · have := moveToClosed_eq h
      subst this
      exact ⟨hs, .inl (by simp [alive])⟩
    · cases h
      exact ⟨hs, .inr ⟨rfl, rfl, rfl, rfl⟩⟩
  simp only [step, tx] at h
  split at h
  · cases h; exact ⟨hs, .inr ⟨rfl, rfl, rfl, rfl⟩⟩
  · rename_i hi
    have hi : c.inChans = true := by simpa using hi
    split at h
    · split at h
      · simp only [Option.map_map, Option.map_eq_some_iff] at h
        obtain ⟨a, h1, rfl⟩ := h
        exact skip hs h1
      · cases r with
        | full =>
          simp only [Option.map_map, Option.map_eq_some_iff] at h
          obtain ⟨a, h1, rfl⟩ := h
          exact skip hs h1
        | zero => cases h; exact ⟨hs, .inr ⟨rfl, rfl, rfl, rfl⟩⟩
        | part =>
          simp only [Option.map_map, Option.map_eq_some_iff] at h
          obtain ⟨a, h1, rfl⟩ := h
          have := childErr_dead hi h1
          exact ⟨this.2.trans hs, .inl this.1⟩
        | fail e =>
          simp only [Option.map_map, Option.map_eq_some_iff] at h
          obtain ⟨a, h1, rfl⟩ := h
          have := childErr_dead hi h1
          exact ⟨this.2.trans hs, .inl this.1⟩
    · rw [if_neg (by omega)] at h
      cases h
      exact ⟨hs, .inr ⟨rfl, rfl, rfl, rfl⟩⟩

theorem t2_eq (c : Chan) : ∃ q a, t2 c = { c with ackPending := a, cmdrsp := q } := by
  unfold t2
  have key : ∃ q a, (if c.ackPending ≠ 0 then sendAck c false false else c) = { c with ackPending := a, cmdrsp := q } := by
    split
    · obtain ⟨q, hq⟩ := sendAck_eq c false false
      exact ⟨q, 0, hq⟩
    · exact ⟨_, _, rfl⟩
  split
  · exact key
  · exact key
  · exact ⟨_, _, rfl⟩

theorem silent_dead {c c' : Chan} {e : Ev} (hs : c.sendLen = 0) (hd : alive c = false) (he : silent e = true) (h : step c e = some c') :
    c'.sendLen = 0 ∧ alive c' = false := by
  cases e with
  | t1 =>
    simp only [step, t1] at h
    simp only [alive, Bool.or_eq_false_iff, decide_eq_false_iff_not] at hd
    split at h <;> simp_all [alive]
  | t2 =>
    simp only [step] at h
    obtain ⟨q, a, hq⟩ := t2_eq c
    rw [hq] at h
    cases h
    exact ⟨hs, hd⟩
  | tx r =>
    obtain ⟨h1, h2 | h2⟩ := tx_waiting hs h
    · exact ⟨h1, h2⟩
    · refine ⟨h1, ?_⟩
      simp only [alive, h2.1] at hd ⊢
      exact hd
  | _ => cases he

theorem silent_alive {c c' : Chan} {e : Ev} (w : Waiting c) (hd : alive c = true) (he : silent e = true) (h : step c e = some c') :
    (c'.sendLen = 0 ∧ alive c' = false) ∨ (alive c' = true ∧ Waiting c' ∧ patience c' + (if isT1 e then 1 else 0) ≤ patience c) := by
  obtain ⟨w1, w2, w3⟩ := w
  cases e with
  | t1 =>
    simp only [step, t1] at h
    simp only [alive, Bool.or_eq_true, decide_eq_true_eq] at hd
    split at h
    · rename_i hst
      split at h
      · have := moveToClosed_eq h
        subst this
        exact .inl ⟨w3, by simp [alive]⟩
      · rename_i hr
        have : ∃ q, sendSabm { c with retryCount := c.retryCount + 1 } = { c with retryCount := c.retryCount + 1, cmdrsp := q } := by
          unfold sendSabm sendCmd
          repeat' (first | exact sendCr_eq _ _ _ _ _ | split)
        obtain ⟨q, hq⟩ := this
        rw [hq] at h
        cases h
        refine .inr ⟨by simp [alive, hst], ⟨w1, by simp [hst], w3⟩, ?_⟩
        simp only [patience, hst, isT1]
        simp
        omega
    · rename_i hst
      split at h
      · rename_i hp
        split at h
        · have := doErrClose_dead h
          obtain ⟨q, hq⟩ := sendCr_eq c (.unn .dm) true false []
          refine .inl ⟨this.2.trans ?_, this.1⟩
          simp only [sendRsp, hq]
          exact w3
        · rename_i hr
          obtain ⟨q, hq⟩ := sendAck_eq { c with retryCount := c.retryCount + 1 } true true
          rw [hq] at h
          cases h
          have := w2 (.inl hst) hp
          refine .inr ⟨by simp [alive, hst], ⟨w1, fun _ _ => (by dsimp only; omega), w3⟩, ?_⟩
          simp only [patience, hst, hp, isT1]
          simp
          omega
      · rename_i hp
        obtain ⟨q, hq⟩ := sendAck_eq { c with retryCount := 1, pollPending := true } true true
        rw [hq] at h
        cases h
        refine .inr ⟨by simp [alive, hst], ⟨w1, fun _ _ => w1, w3⟩, ?_⟩
        simp only [patience, hst, hp, isT1]
        simp
        omega
    · rename_i hst
      split at h
      · rename_i hp
        split at h
        · have := doErrClose_dead h
          obtain ⟨q, hq⟩ := sendCr_eq c (.unn .dm) true false []
          refine .inl ⟨this.2.trans ?_, this.1⟩
          simp only [sendRsp, hq]
          exact w3
        · rename_i hr
          obtain ⟨q, hq⟩ := sendAck_eq { c with retryCount := c.retryCount + 1 } true true
          rw [hq] at h
          cases h
          have := w2 (.inr hst) hp
          refine .inr ⟨by simp [alive, hst], ⟨w1, fun _ _ => (by dsimp only; omega), w3⟩, ?_⟩
          simp only [patience, hst, hp, isT1]
          simp
          omega
      · rename_i hp
        obtain ⟨q, hq⟩ := sendAck_eq { c with retryCount := 1, pollPending := true } true true
        rw [hq] at h
        cases h
        refine .inr ⟨by simp [alive, hst], ⟨w1, fun _ _ => w1, w3⟩, ?_⟩
        simp only [patience, hst, hp, isT1]
        simp
        omega
    · rename_i hst
      split at h
      · have := moveToClosed_eq h
        subst this
        exact .inl ⟨w3, by simp [alive]⟩
      · rename_i hr
        obtain ⟨q, hq⟩ := sendCr_eq { c with retryCount := c.retryCount + 1 } (.unn .disc) true true []
        rw [sendCmd, hq] at h
        cases h
        refine .inr ⟨by simp [alive, hst], ⟨w1, by simp [hst], w3⟩, ?_⟩
        simp only [patience, hst, isT1]
        simp
        omega
    · rename_i n1 n2 n3 n4
      rcases hd with ((hd | hd) | hd) | hd
      · exact absurd hd n1
      · exact absurd hd n2
      · exact absurd hd n3
      · exact absurd hd n4
  | t2 =>
    simp only [step] at h
    obtain ⟨q, a, hq⟩ := t2_eq c
    rw [hq] at h
    cases h
    exact .inr ⟨hd, ⟨w1, w2, w3⟩, Nat.le_refl _⟩
  | tx r =>
    obtain ⟨h1, h2 | ⟨h2, h3, h4, h5⟩⟩ := tx_waiting w3 h
    · exact .inl ⟨h1, h2⟩
    · refine .inr ⟨?_, ⟨by rw [h4]; exact w1, by rw [h2, h3, h4, h5]; exact w2, h1⟩, ?_⟩
      · simp only [alive, h2] at hd ⊢
        exact hd
      · simp only [patience, h2, h3, h4, h5]
        exact Nat.le_refl _
  | _ => cases he

/-- C111, partial: a station that hears nothing gives up: whatever it sends, and however often T2 expires, when T1 has expired once more than there
are retries the connection is gone.  Missing: no retries configured, data still to be sent, T3, and a count of retries already above
the maximum. -/
theorem C111_gives_up_partial {c c' : Chan} (h1 : 1 ≤ c.maxRetries)
    (hb : (c.state = .opn ∨ c.state = .drain) → c.pollPending = true → c.retryCount ≤ c.maxRetries) (hs : c.sendLen = 0)
    {l : List Ev} (hl : ∀ e ∈ l, silent e = true) (hc : c.maxRetries < (l.filter isT1).length)
    (h : run c l = some c') : c'.state ≠ .inOpen ∧ c'.state ≠ .opn ∧ c'.state ≠ .drain ∧ c'.state ≠ .inClose := by
  have dead : ∀ (l : List Ev) (c : Chan), c.sendLen = 0 → alive c = false → (∀ e ∈ l, silent e = true) → run c l = some c' → alive c' = false := by
    intro l
    induction l with
    | nil => intro c _ hd _ h; cases h; exact hd
    | cons e l ih =>
      intro c hs hd hl h
      rw [run] at h
      cases he : step c e with
      | none => rw [he] at h; cases h
      | some c1 =>
        rw [he] at h
        obtain ⟨a, b⟩ := silent_dead hs hd (hl e (by simp)) he
        exact ih c1 a b (fun e he => hl e (by simp [he])) h
  have key : ∀ (l : List Ev) (c : Chan), Waiting c → alive c = true → (∀ e ∈ l, silent e = true) →
      patience c < (l.filter isT1).length → run c l = some c' → alive c' = false := by
    intro l
    induction l with
    | nil => intro c _ _ _ hp; simp at hp
    | cons e l ih =>
      intro c w ha hl hp h
      rw [run] at h
      cases he : step c e with
      | none => rw [he] at h; cases h
      | some c1 =>
        rw [he] at h
        rcases silent_alive w ha (hl e (by simp)) he with ⟨a, b⟩ | ⟨a, b, hd⟩
        · exact dead l c1 a b (fun e he => hl e (by simp [he])) h
        · refine ih c1 b a (fun e he => hl e (by simp [he])) ?_ h
          rw [List.filter_cons] at hp
          split at hp
          · rename_i ht
            rw [if_pos ht] at hd
            simp only [List.length_cons] at hp
            omega
          · omega
  have hfin : alive c' = false := by
    cases ha : alive c with
    | true =>
      refine key l c ⟨h1, hb, hs⟩ ha hl (Nat.lt_of_le_of_lt ?_ hc) h
      unfold patience
      split <;> omega
    | false => exact dead l c hs ha hl h
  simp only [alive, Bool.or_eq_false_iff, decide_eq_false_iff_not] at hfin
  exact ⟨hfin.1.1.1, hfin.1.1.2, hfin.1.2, hfin.2⟩

/-- Two retries: polled twice, then an error. -/
example : ((exOpen { exConf with maxRetries := 2 } [.t1, .tx .full, .t1, .tx .full]).map (·.state) = some .opn) ∧
    ((exOpen { exConf with maxRetries := 2 } [.t1, .tx .full, .t1, .tx .full, .t1]).map (·.state) = some .ioErr) := by decide +kernel

end Gensio.Ax25
