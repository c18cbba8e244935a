import Verif.Lemmas.SelectorThread

/-!
# Timers and runners of `lib/os_unix_selector.c`: C74, C75, C76, C78, C81
-/

namespace Gensio.Sel

open Gensio.Heap (Heap upd Inv)

/-- What happened from one state to another, the latest first. -/
inductive Hist : Sel → Spec → List (Act × Ev) → Sel → Spec → Prop
  | nil (s : Sel) (p : Spec) : Hist s p [] s p
  | next {s s1 s2 : Sel} {p p1 : Spec} {h : List (Act × Ev)} {a : Act} {e : Ev} : Hist s p h s1 p1 → s1.can a = true →
      p1.allowed a → s1.step a = some (s2, e) → Hist s p ((a, e) :: h) s2 (p1.after a e)

theorem Hist.run {s s' : Sel} {p p' : Spec} {h : List (Act × Ev)} (x : Hist s p h s' p') (r : Run s p) : Run s' p' := by
  induction x with
  | nil => exact r
  | next _ hc ha he ih => exact .step (ih r) hc ha he

/-- The accepted calls of `sel_start_timer` for a timer. -/
def starts (t : Nat) (h : List (Act × Ev)) : Nat :=
  h.countP fun x => match x with
    | (.start t' _, .ret n) => t' = t && n = 0
    | _ => false

/-- The calls of the handler of a timer. -/
def handlers (t : Nat) (h : List (Act × Ev)) : Nat :=
  h.countP fun x => match x.2 with
    | .handler _ t' => t' = t
    | _ => false

/-- The accepted calls of `sel_stop_timer_with_done` for a timer. -/
def stopDones (t : Nat) (h : List (Act × Ev)) : Nat :=
  h.countP fun x => match x with
    | (.stopDone t', .ret n) => t' = t && n = 0
    | _ => false

/-- The calls of done handlers of a timer. -/
def dones (t : Nat) (h : List (Act × Ev)) : Nat :=
  h.countP fun x => match x.2 with
    | .done _ t' => t' = t
    | _ => false

/-- The accepted calls of `sel_run` for a runner. -/
def runs (r : Nat) (h : List (Act × Ev)) : Nat :=
  h.countP fun x => match x with
    | (.run r', .ret n) => r' = r && n = 0
    | _ => false

/-- The calls of the function of a runner. -/
def calls (r : Nat) (h : List (Act × Ev)) : Nat :=
  h.countP fun x => match x.2 with
    | .runner _ r' => r' = r
    | _ => false

/-- Only the steps of threads in the selector have events of their own. -/
theorem ev_shape {s s' : Sel} {a : Act} {e : Ev} (h : s.step a = some (s', e)) :
    match a with
    | .tick _ | .allocTimer _ | .allocRunner _ | .enter _ => e = .silent
    | .start .. | .stop _ | .stopDone _ | .free _ | .run _ | .freeRunner _ => ∃ n, e = .ret n
    | .go _ | .back _ => True := by
  have key : ∀ {α : Type} {o : Option α} {f : α → Sel × Ev}, o.map f = some (s', e) → ∃ x, f x = (s', e) := by
    intro α o f h
    rw [Option.map_eq_some_iff] at h
    obtain ⟨x, _, hx⟩ := h
    exact ⟨x, hx⟩
  cases a <;> simp only [Sel.step] at h ⊢
  case tick => simp_all
  case allocTimer => simp_all
  case allocRunner => simp_all
  case enter => simp_all
  case start | stop | stopDone | free =>
    split at h
    · obtain ⟨x, hx⟩ := key h
      simp only [Prod.mk.injEq] at hx
      exact ⟨_, hx.2.symm⟩
    · cases h
  case run | freeRunner =>
    split at h
    · simp only [Option.some.injEq, Prod.mk.injEq] at h
      exact ⟨_, h.2.symm⟩
    · cases h

/-! ## C74 -/

/-- C74.  From any state that can come about, every step that can happen and is allowed is defined (no memory is touched that
is not allocated, the heap is in order) and does to the timer only what the account allows: `sel_start_timer` is refused
just when the timer is waiting for its time or for its done handler; `sel_stop_timer` returns 0 just when there is an
accepted start that was neither stopped nor run; a handler is called only for a timer that is not freed, was started, was not
stopped since, is due, comes first among the timers that wait, and has no handler of its own running in any thread; and a
thread is through with a timer only if it was the one in its handler. -/
theorem C74_timers {s : Sel} {p : Spec} (r : Run s p) {a : Act} (hc : s.can a = true) (ha : p.allowed a) :
    ∃ s' e, s.step a = some (s', e) ∧ p.timerOk a e ∧ Run s' (p.after a e) := by
  obtain ⟨s', e, h1, -, h2, -⟩ := step_spec r.r hc ha
  exact ⟨s', e, h1, h2, .step r hc ha h1⟩

/-- The step of a history, with what it allows. -/
theorem step_ok {s s' : Sel} {p : Spec} (r : Run s p) {a : Act} {e : Ev} (hc : s.can a = true) (ha : p.allowed a)
    (h : s.step a = some (s', e)) : p.timerOk a e ∧ p.dueOk e ∧ p.runnerOk a e := by
  obtain ⟨s2, e2, h1, -, h2⟩ := step_spec r.r hc ha
  rw [h] at h1
  have := Option.some.inj h1
  simp only [Prod.mk.injEq] at this
  rw [this.2]
  exact h2

theorem countP_next {α : Type} (f : α → Bool) (x : α) (l : List α) :
    (x :: l).countP f = l.countP f + if f x then 1 else 0 := by
  rw [List.countP_cons]

/-- C74.  A handler is called at most once for each accepted start. -/
theorem C74_count (val : Nat → Tv) (left right up : Nat → Option Nat) (inUse : Nat → Bool) (clock : Time)
    {h : List (Act × Ev)} {s : Sel} {p : Spec} (x : Hist (Sel.init val left right up inUse clock) (Spec.init clock) h s p)
    (t : Nat) : handlers t h + (if (p.timer t).armed ≠ none then 1 else 0) ≤ starts t h := by
  generalize hs0 : Sel.init val left right up inUse clock = s0 at x
  generalize hp0 : Spec.init clock = p0 at x
  have r0 : Run s0 p0 := by rw [← hs0, ← hp0]; exact .init ..
  induction x with
  | nil => rw [← hp0]; simp [handlers, starts, Spec.init]
  | @next s1 s2 p p1 h a e x hc ha he ih =>
    have ih := ih hp0 r0
    have r1 := x.run r0
    obtain ⟨ok, -, -⟩ := step_ok r1 hc ha he
    have sh := ev_shape he
    simp only [handlers, starts, countP_next] at ih ⊢
    have setT : ∀ (q : Spec) (u : Nat) (v : TS), ((q.setT u v).timer t) = if t = u then v else q.timer t := by
      intro q u v; simp only [Spec.setT, upd]
    cases a
    case go w | back w =>
      cases e <;> simp only [Spec.after, Spec.afterEv, setT, Spec.timerOk] at ok ⊢ <;> grind
    all_goals
      simp only at sh
      first
        | (obtain ⟨n, rfl⟩ := sh
           simp only [Spec.after, setT, Spec.timerOk, Ev.ret.injEq, eBusy, eTimedOut] at ok ⊢
           grind)
        | (subst sh
           simp only [Spec.after, setT, Spec.timerOk] at ok ⊢
           grind)

/-! Running examples. -/

instance (p : Spec) (a : Act) : Decidable (p.allowed a) := by
  cases a <;> simp only [Spec.allowed] <;> infer_instance

/-- Steps one after the other, as long as they can happen and are allowed. -/
def exec : List Act → Sel → Spec → List (Act × Ev) → Option (Sel × Spec × List (Act × Ev))
  | [], s, p, h => some (s, p, h)
  | a :: l, s, p, h =>
    if s.can a = true ∧ p.allowed a then
      match s.step a with
      | none => none
      | some (s', e) => exec l s' (p.after a e) ((a, e) :: h)
    else none

theorem exec_hist {l : List Act} {s0 s s' : Sel} {p0 p p' : Spec} {h h' : List (Act × Ev)} (x : Hist s0 p0 h s p)
    (e : exec l s p h = some (s', p', h')) : Hist s0 p0 h' s' p' := by
  induction l generalizing s p h with
  | nil => simp only [exec, Option.some.injEq, Prod.mk.injEq] at e; rw [← e.1, ← e.2.1, ← e.2.2]; exact x
  | cons a l ih =>
    simp only [exec] at e
    split at e
    · rename_i hc
      split at e
      · cases e
      · rename_i hs; exact ih (.next x hc.1 hc.2 hs) e
    · cases e

/-- An empty selector at time 10 s. -/
def s0 : Sel := Sel.init (fun _ => {}) (fun _ => none) (fun _ => none) (fun _ => none) (fun _ => false) (10, 0)

def p0 : Spec := Spec.init (10, 0)

theorem exec_s0 {l : List Act} {s' : Sel} {p' : Spec} {h' : List (Act × Ev)} (e : exec l s0 p0 [] = some (s', p', h')) :
    Hist s0 p0 h' s' p' := exec_hist (.nil s0 p0) e

theorem run_s0 : Run s0 p0 := .init ..

/-- The example: two timers, the later started first; thread 5 calls the handlers in the order of the times, during the first
one the timer is started again and the second is stopped; then the thread leaves, and on its next turn waits for the first. -/
example : (exec [.allocTimer 1, .allocTimer 2, .start 2 (13, 5), .start 1 (13, 4), .start 1 (14, 0), .tick (13, 9), .enter 5,
      .go 5, .go 5, .start 1 (20, 0), .stop 2, .stop 2, .back 5, .go 5, .enter 5, .go 5, .go 5] s0 p0 []).map
      (fun x => (x.2.2.map (·.2)).reverse)
    = some [.silent, .silent, .ret 0, .ret 0, .ret eBusy, .silent, .silent, .silent, .handler 5 1, .ret 0, .ret 0,
      .ret eTimedOut, .fin 5 1, .leave 5, .silent, .silent, .wait 5 (20, 0)] := by
  decide +kernel

/-- The example: a timer is freed by another thread while in its handler; its memory stays until the handler returns. -/
example : (exec [.allocTimer 1, .start 1 (10, 0), .enter 5, .go 5, .go 5, .free 1] s0 p0 []).map
      (fun x => (x.1.live 1, (x.2.1.timer 1).alive)) = some (true, false)
    ∧ (exec [.allocTimer 1, .start 1 (10, 0), .enter 5, .go 5, .go 5, .free 1, .back 5] s0 p0 []).map
      (fun x => (x.1.live 1, (x.2.1.timer 1).alive)) = some (false, false) := by
  constructor <;> decide +kernel

/-! ## C75 -/

/-- C75.  A thread that begins to wait or leaves without having waited has dealt with every timer that was due when it
entered the selector; and it waits no longer than until the first timer is due, and not at all while an accepted
`sel_stop_timer_with_done` awaits the call of its done handler. -/
theorem C75_due {s s' : Sel} {p : Spec} (r : Run s p) {a : Act} {e : Ev} (hc : s.can a = true) (ha : p.allowed a)
    (h : s.step a = some (s', e)) : p.dueOk e := (step_ok r hc ha h).2.1

/-- The example: the thread waits until the earlier of two timers; no other time would do. -/
example : (exec [.allocTimer 1, .allocTimer 2, .start 2 (13, 5), .start 1 (13, 4), .enter 5, .go 5, .go 5] s0 p0 []).map
      (fun x => x.2.2.head?) = some (some (.go 5, .wait 5 (13, 4))) := by
  decide +kernel

/-! ## C76 -/

/-- C76, partial.  The accepted calls of `sel_stop_timer_with_done` are exactly the calls of done handlers, one more when the
call of a done handler is outstanding.  What is missing: it may be outstanding for ever (`stuck`), see
`C76_violated`; `C75_due` has that no thread begins to wait while it is outstanding otherwise. -/
theorem C76_count_partial (val : Nat → Tv) (left right up : Nat → Option Nat) (inUse : Nat → Bool) (clock : Time)
    {h : List (Act × Ev)} {s : Sel} {p : Spec} (x : Hist (Sel.init val left right up inUse clock) (Spec.init clock) h s p)
    (t : Nat) : stopDones t h
      = dones t h + (if (p.timer t).busy = .pending ∨ (p.timer t).busy = .stuck then 1 else 0) := by
  generalize hs0 : Sel.init val left right up inUse clock = s0 at x
  generalize hp0 : Spec.init clock = p0 at x
  have r0 : Run s0 p0 := by rw [← hs0, ← hp0]; exact .init ..
  induction x with
  | nil => rw [← hp0]; simp [dones, stopDones, Spec.init]
  | @next s1 s2 p p1 h a e x hc ha he ih =>
    have ih := ih hp0 r0
    have r1 := x.run r0
    obtain ⟨ok, -, -⟩ := step_ok r1 hc ha he
    have sh := ev_shape he
    simp only [dones, stopDones, countP_next] at ih ⊢
    have setT : ∀ (q : Spec) (u : Nat) (v : TS), ((q.setT u v).timer t) = if t = u then v else q.timer t := by
      intro q u v; simp only [Spec.setT, upd]
    cases a
    case go w | back w =>
      cases e <;> simp only [Spec.after, Spec.afterEv, setT, Spec.timerOk] at ok ⊢ <;> grind
    case allocTimer q =>
      simp only at sh
      subst sh
      simp only [Sel.can, Bool.and_eq_true, decide_eq_true_eq, Bool.not_eq_true'] at hc
      have lv : ¬ ((p1.timer q).alive = true ∨ (p1.timer q).busy ≠ .idle) := by
        rw [← (r1.r.t.tr q).lv, hc.2]; simp
      simp only [Spec.after, setT] at ok ⊢
      grind
    case stop q | free q =>
      simp only at sh
      obtain ⟨n, rfl⟩ := sh
      simp only [Spec.after, setT, Spec.timerOk] at ok ⊢
      cases hb : (p1.timer q).busy <;> simp only [Busy.stop] <;> grind
    all_goals
      simp only at sh
      first
        | (obtain ⟨n, rfl⟩ := sh
           simp only [Spec.after, setT, Spec.timerOk, Ev.ret.injEq, eBusy, eTimedOut] at ok ⊢
           grind)
        | (subst sh
           simp only [Spec.after, setT, Spec.timerOk] at ok ⊢
           grind)

/-- A timer that was stopped or freed while the call of its done handler was outstanding: neither of its handlers is called
again, whatever happens. -/
theorem stuck_step {s s' : Sel} {p : Spec} (r : Run s p) {a : Act} {e : Ev} (hc : s.can a = true) (ha : p.allowed a)
    (he : s.step a = some (s', e)) {t : Nat} (hb : (p.timer t).busy = .stuck) :
    ((p.after a e).timer t).busy = .stuck ∧ ∀ w, e ≠ .handler w t ∧ e ≠ .done w t := by
  obtain ⟨ok, -, -⟩ := step_ok r hc ha he
  have sh := ev_shape he
  have setT : ∀ (q : Spec) (u : Nat) (v : TS), ((q.setT u v).timer t) = if t = u then v else q.timer t := by
    intro q u v; simp only [Spec.setT, upd]
  cases a
  case go w | back w =>
    cases e <;> simp only [Spec.after, Spec.afterEv, setT, Spec.timerOk] at ok ⊢ <;> grind
  case allocTimer q =>
    simp only at sh
    subst sh
    simp only [Sel.can, Bool.and_eq_true, decide_eq_true_eq, Bool.not_eq_true'] at hc
    have lv : ¬ ((p.timer q).alive = true ∨ (p.timer q).busy ≠ .idle) := by
      rw [← (r.r.t.tr q).lv, hc.2]; simp
    simp only [Spec.after, setT] at ok ⊢
    grind
  case stop q | free q =>
    simp only at sh
    obtain ⟨n, rfl⟩ := sh
    simp only [Spec.after, setT, Spec.timerOk] at ok ⊢
    cases hb : (p.timer q).busy <;> simp only [Busy.stop] <;> grind
  all_goals
    simp only at sh
    first
      | (obtain ⟨n, rfl⟩ := sh
         simp only [Spec.after, setT, Spec.timerOk, Ev.ret.injEq, eBusy, eTimedOut] at ok ⊢
         grind)
      | (subst sh
         simp only [Spec.after, setT, Spec.timerOk] at ok ⊢
         grind)

theorem stuck_hist {s s' : Sel} {p p' : Spec} (r : Run s p) {h : List (Act × Ev)} (x : Hist s p h s' p') {t : Nat}
    (hb : (p.timer t).busy = .stuck) : (p'.timer t).busy = .stuck ∧ ∀ y ∈ h, ∀ w, y.2 ≠ .handler w t ∧ y.2 ≠ .done w t := by
  induction x with
  | nil => exact ⟨hb, fun y hy => by cases hy⟩
  | @next s1 s2 p p1 h a e x hc ha he ih =>
    obtain ⟨h1, h2⟩ := ih r hb
    obtain ⟨h3, h4⟩ := stuck_step (x.run r) hc ha he h1
    refine ⟨h3, fun y hy => ?_⟩
    rw [List.mem_cons] at hy
    rcases hy with rfl | hy
    · exact h4
    · exact h2 y hy

/-- C76, violated: `sel_stop_timer_with_done` is accepted, then the timer is stopped (or freed) before its done handler is
called: whatever happens after that, the done handler is never called.  Stopping or freeing takes the timer out of the heap
though it is there for its done handler, :918-921, :934-935, and `in_handler` and `done_handler` stay set. -/
theorem C76_violated (a : Act) (ha : a = .stop 1 ∨ a = .free 1) : ∃ h s p, Hist s0 p0 ((a, .ret (if a = .stop 1 then eTimedOut else 0)) :: h) s p
      ∧ stopDones 1 h = 1 ∧ dones 1 h = 0
      ∧ ∀ h' s' p', Hist s p h' s' p' → ∀ y ∈ h', ∀ w, y.2 ≠ .done w 1 := by
  have key : (exec [.allocTimer 1, .start 1 (20, 0), .stopDone 1, a] s0 p0 []).any (fun x =>
      decide ((x.2.1.timer 1).busy = .stuck ∧ x.2.2 = [(a, .ret (if a = .stop 1 then eTimedOut else 0)), (.stopDone 1, .ret 0),
        (.start 1 (20, 0), .ret 0), (.allocTimer 1, .silent)])) = true := by
    rcases ha with rfl | rfl <;> decide +kernel
  rw [Option.any_eq_true] at key
  obtain ⟨⟨s, p, h⟩, e, hx⟩ := key
  simp only [decide_eq_true_eq] at hx
  obtain ⟨h1, rfl⟩ := hx
  have x := exec_s0 e
  exact ⟨_, s, p, x, by decide, by decide, fun h' s' p' x' y hy w => ((stuck_hist (x.run run_s0) x' h1).2 y hy w).2⟩

/-- C76, violated: the timer of the example before can be started again without an error and neither of its handlers is ever
called; further calls of `sel_stop_timer_with_done` are refused for ever. -/
theorem C76_dead {s : Sel} {p : Spec} (r : Run s p) {t : Nat} (hb : (p.timer t).busy = .stuck)
    (hal : (p.timer t).alive = true) (hl : s.lock = none) (time : Time) :
    (∃ s', s.step (.start t time) = some (s', .ret 0))
    ∧ (∃ s', s.step (.stopDone t) = some (s', .ret eBusy))
    ∧ ∀ h' s' p', Hist s p h' s' p' → ∀ y ∈ h', ∀ w, y.2 ≠ .handler w t ∧ y.2 ≠ .done w t := by
  refine ⟨?_, ?_, fun h' s' p' x' => (stuck_hist r x' hb).2⟩
  · obtain ⟨s', e, h1, h2, -⟩ := C74_timers r (a := .start t time) (by simp [Sel.can, hl]) hal
    simp only [Spec.timerOk, TS.queued, hb] at h2
    simp at h2
    rw [h2] at h1; exact ⟨s', h1⟩
  · obtain ⟨s', e, h1, h2, -⟩ := C74_timers r (a := .stopDone t) (by simp [Sel.can, hl]) hal
    simp only [Spec.timerOk, hb] at h2
    simp at h2
    rw [h2] at h1; exact ⟨s', h1⟩

/-- C76, violated: in its handler a timer is started again; `sel_stop_timer_with_done` then says that the timer is not running
and does not stop it, and its handler is called again. -/
theorem C76_restart_violated : ∃ s p, Hist s0 p0 [(.go 5, .handler 5 1), (.go 5, .silent), (.enter 5, .silent),
      (.tick (30, 0), .silent), (.go 5, .leave 5), (.back 5, .fin 5 1), (.stopDone 1, .ret eTimedOut),
      (.start 1 (30, 0), .ret 0), (.go 5, .handler 5 1), (.go 5, .silent), (.enter 5, .silent), (.start 1 (10, 0), .ret 0),
      (.allocTimer 1, .silent)] s p := by
  have key : (exec [.allocTimer 1, .start 1 (10, 0), .enter 5, .go 5, .go 5, .start 1 (30, 0), .stopDone 1, .back 5, .go 5,
      .tick (30, 0), .enter 5, .go 5, .go 5] s0 p0 []).any (fun x =>
      decide (x.2.2 = [(.go 5, .handler 5 1), (.go 5, .silent), (.enter 5, .silent),
      (.tick (30, 0), .silent), (.go 5, .leave 5), (.back 5, .fin 5 1), (.stopDone 1, .ret eTimedOut),
      (.start 1 (30, 0), .ret 0), (.go 5, .handler 5 1), (.go 5, .silent), (.enter 5, .silent), (.start 1 (10, 0), .ret 0),
      (.allocTimer 1, .silent)])) = true := by
    decide +kernel
  rw [Option.any_eq_true] at key
  obtain ⟨⟨s, p, h⟩, e, hx⟩ := key
  simp only [decide_eq_true_eq] at hx
  subst hx
  exact ⟨s, p, exec_s0 e⟩

/-! ## C78 -/

/-- C78.  From any state that can come about: `sel_run` is refused just when a call of the function of the runner is
outstanding, `sel_free_runner` too; the function of a runner is called only when it is outstanding and the runner is not
freed. -/
theorem C78_runners {s : Sel} {p : Spec} (r : Run s p) {a : Act} (hc : s.can a = true) (ha : p.allowed a) :
    ∃ s' e, s.step a = some (s', e) ∧ p.runnerOk a e ∧ Run s' (p.after a e) := by
  obtain ⟨s', e, h1, -, -, -, h2⟩ := step_spec r.r hc ha
  exact ⟨s', e, h1, h2, .step r hc ha h1⟩

/-- C78.  The function of a runner is called exactly once for each accepted `sel_run`, save the one that is outstanding. -/
theorem C78_count (val : Nat → Tv) (left right up : Nat → Option Nat) (inUse : Nat → Bool) (clock : Time)
    {h : List (Act × Ev)} {s : Sel} {p : Spec} (x : Hist (Sel.init val left right up inUse clock) (Spec.init clock) h s p)
    (r : Nat) : runs r h = calls r h + (if p.pend r then 1 else 0)
      ∧ (p.pend r = true ↔ r ∈ s.queue ∨ ∃ w, r ∈ (s.loc w).rest) := by
  generalize hs0 : Sel.init val left right up inUse clock = s0 at x
  generalize hp0 : Spec.init clock = p0 at x
  have r0 : Run s0 p0 := by rw [← hs0, ← hp0]; exact .init ..
  refine ⟨?_, (x.run r0).r.r.pd r⟩
  induction x with
  | nil => rw [← hp0]; simp [runs, calls, Spec.init]
  | @next s1 s2 p p1 h a e x hc ha he ih =>
    have ih := ih hp0 r0
    have r1 := x.run r0
    obtain ⟨-, -, ok⟩ := step_ok r1 hc ha he
    have sh := ev_shape he
    simp only [runs, calls, countP_next] at ih ⊢
    have setT : ∀ (q : Spec) (u : Nat) (v : TS), (q.setT u v).pend = q.pend := by
      intro q u v; simp only [Spec.setT]
    cases a
    case go w | back w =>
      cases e <;> simp only [Spec.after, Spec.afterEv, setT, Spec.runnerOk, upd] at ok ⊢ <;> grind
    case allocRunner q =>
      simp only at sh
      subst sh
      simp only [Sel.can, Bool.and_eq_true, decide_eq_true_eq, Bool.not_eq_true'] at hc
      have np : p1.pend q = false := by
        apply Classical.byContradiction; intro e
        have := r1.r.r.plive q (by simpa using e)
        rw [hc.2] at this; cases this
      simp only [Spec.after, upd] at ok ⊢
      grind
    case run q =>
      simp only at sh
      obtain ⟨n, rfl⟩ := sh
      simp only [Spec.after, Spec.runnerOk, Ev.ret.injEq, eBusy] at ok ⊢
      rcases ok with ⟨h1, h2⟩ | ⟨h1, h2⟩
      · subst h2; simp only [Nat.reduceEqDiff, if_false, decide_false, Bool.and_false]; exact ih
      · subst h2
        simp only [if_true, upd]
        by_cases hq : r = q
        · subst hq; rw [h1] at ih; simp at ih ⊢; exact ih
        · rw [if_neg hq, if_neg (by simpa using fun h => hq h.symm)]; simpa using ih
    all_goals
      simp only at sh
      first
        | (obtain ⟨n, rfl⟩ := sh
           simp only [Spec.after, setT, Spec.runnerOk, upd, Ev.ret.injEq, eBusy] at ok ⊢
           grind)
        | (subst sh
           simp only [Spec.after, setT, Spec.runnerOk, upd] at ok ⊢
           grind)

/-- The example: three runners; while the first runs it queues itself again, which is run in the next call of the selector. -/
example : (exec [.allocRunner 1, .allocRunner 2, .run 1, .run 2, .run 1, .enter 5, .go 5, .run 1, .freeRunner 1, .back 5, .go 5,
      .back 5, .go 5, .go 5, .enter 6, .go 6] s0 p0 []).map (fun x => (x.2.2.map (·.2)).reverse)
    = some [.silent, .silent, .ret 0, .ret 0, .ret eBusy, .silent, .runner 5 1, .ret 0, .ret eBusy, .silent, .runner 5 2,
      .silent, .silent, .leave 5, .silent, .runner 6 1] := by
  decide +kernel

/-! ## C81 -/

theorem diff_go (sec usec : Int) (n : Nat) (hn : -usec ≤ n) : ∃ k : Nat, diffTimeval.go sec usec n = (sec - k, usec + 1000000 * k)
    ∧ 0 ≤ usec + 1000000 * k ∧ (k = 0 ∨ usec + 1000000 * k < 1000000) := by
  induction n generalizing sec usec with
  | zero => exact ⟨0, by simp [diffTimeval.go], by omega, by omega⟩
  | succ n ih =>
    simp only [diffTimeval.go]
    split
    · obtain ⟨k, h1, h2, h3⟩ := ih (sec - 1) (usec + 1000000) (by omega)
      refine ⟨k + 1, ?_, by omega, by omega⟩
      rw [h1]
      simp only [Prod.mk.injEq]
      omega
    · exact ⟨0, by simp, by omega, by omega⟩

/-- A time in microseconds. -/
def micros (t : Time) : Int := t.1 * 1000000 + t.2

/-- As it should be: the microseconds are fewer than a second. -/
def Normal (t : Time) : Prop := 0 ≤ t.2 ∧ t.2 < 1000000

/-- C81.  The difference of two times is the difference in microseconds, or zero when that is negative, in normal form. -/
theorem C81_diff {l r : Time} (hl : Normal l) (hr : Normal r) : micros (diffTimeval l r) = max 0 (micros l - micros r)
    ∧ Normal (diffTimeval l r) := by
  simp only [Normal, micros] at *
  unfold diffTimeval
  split
  · simp; omega
  · rename_i h
    obtain ⟨k, h1, h2, h3⟩ := diff_go (l.1 - r.1) (l.2 - r.2) (r.2 - l.2).toNat (by omega)
    rw [h1]
    simp only
    omega

theorem add_go (sec usec : Int) (n : Nat) (hn : usec ≤ n) : ∃ k : Nat, addTimeval.go sec usec n = (sec + k, usec - 1000000 * k)
    ∧ usec - 1000000 * k ≤ 1000000 ∧ (k = 0 ∨ 0 < usec - 1000000 * k) := by
  induction n generalizing sec usec with
  | zero => exact ⟨0, by simp [addTimeval.go], by omega, by omega⟩
  | succ n ih =>
    simp only [addTimeval.go]
    split
    · obtain ⟨k, h1, h2, h3⟩ := ih (sec + 1) (usec - 1000000) (by omega)
      refine ⟨k + 1, ?_, by omega, by omega⟩
      rw [h1]
      simp only [Prod.mk.injEq]
      omega
    · exact ⟨0, by simp, by omega, by omega⟩

/-- C81, partial: the sum of two times is right in microseconds; it is in normal form except when the microseconds add up to
exactly a second, see `C81_add_violated`. -/
theorem C81_add_partial {l r : Time} (hl : Normal l) (hr : Normal r) : micros (addTimeval l r) = micros l + micros r
    ∧ (Normal (addTimeval l r) ↔ l.2 + r.2 ≠ 1000000) := by
  simp only [Normal, micros] at *
  unfold addTimeval
  obtain ⟨k, h1, h2, h3⟩ := add_go (l.1 + r.1) (l.2 + r.2) (l.2 + r.2).toNat (by omega)
  rw [h1]
  simp only
  omega

/-- C81, violated: the loop of `add_timeval`, :876, stops at a million microseconds. -/
theorem C81_add_violated : Normal (3, 400000) ∧ Normal (1, 600000) ∧ addTimeval (3, 400000) (1, 600000) = (4, 1000000)
    ∧ ¬ Normal (addTimeval (3, 400000) (1, 600000))
    ∧ tcmp (addTimeval (3, 400000) (1, 600000)) (5, 0) < 0 := by
  have h : addTimeval (3, 400000) (1, 600000) = (4, 1000000) := by
    unfold addTimeval
    obtain ⟨k, h1, h2, h3⟩ := add_go (3 + 1) (400000 + 600000) (400000 + 600000 : Int).toNat (by omega)
    have : k = 0 := by omega
    subst this
    simpa using h1
  rw [h]
  simp only [Normal]
  decide

/-- The example of the difference. -/
example : diffTimeval (5, 3) (2, 4) = (2, 999999) := by
  decide +kernel

end Gensio.Sel
