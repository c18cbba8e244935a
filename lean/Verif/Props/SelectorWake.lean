import Verif.Lemmas.SelectorWake
import Verif.Props.Selector

/-!
# Waking the threads that wait in the selector of `lib/os_unix_selector.c`: C77, C79
-/

namespace Gensio.Sel

open Gensio.Heap (Heap upd Inv)

/-! ## C77 -/

/-- C77, partial.  A pool of threads, of which there is at least one, serves the selector and nobody else does.  When all of
them wait, each timer that was started has a thread that waits no longer than until its time or has been signalled; and no
call of a done handler is outstanding.  What is missing: threads that leave for good, and calls of
`sel_stop_timer_with_done` while all threads wait; see `C77_done_violated` and `C77_restart_violated`. -/
theorem C77_timers_partial {pool : Nat → Prop} (hne : ∃ w, pool w) {s : Sel} {p : Spec} (r : PRun pool s p)
    (wait : ∀ w, pool w → s.loc w = .waiting) :
    (∀ t time, (p.timer t).armed = some time → (p.timer t).busy ≠ .stuck →
      ∃ x ∈ s.waits, s.loc x.thread = .waiting ∧ (x.sig = true ∨ tcmp x.wake time ≤ 0))
    ∧ ∀ t, (p.timer t).busy ≠ .pending := by
  have c := r.cov hne
  refine ⟨?_, c.nop wait⟩
  intro t time h1 h2
  have idle : (p.timer t).busy = .idle := by
    cases hb : (p.timer t).busy with
    | idle => rfl
    | pending => exact absurd hb (c.nop wait t)
    | stuck => exact absurd hb h2
    | running w =>
      have hw := (r.run.r.l.run t w).mp hb
      have := wait w (c.ent w (fun e => by rw [e] at hw; cases hw))
      rw [this] at hw; cases hw
  obtain ⟨x, hx, hs⟩ := c.cov wait t time h1 idle
  exact ⟨x, hx, (r.run.listed x.thread).mpr ⟨x, hx, rfl⟩, hs⟩

/-- `Pool` as a test; `ws` are the threads there are. -/
def poolB (pool : Nat → Bool) (ws : List Nat) (s : Sel) : Act → Bool
  | .enter w => pool w
  | .stopDone _ => ws.any fun w => pool w && s.loc w ≠ .waiting
  | _ => true

/-- `exec` for a pool. -/
def execP (pool : Nat → Bool) (ws : List Nat) : List Act → Sel → Spec → Option (Sel × Spec)
  | [], s, p => some (s, p)
  | a :: l, s, p =>
    if s.can a = true ∧ p.allowed a ∧ poolB pool ws s a = true then
      match s.step a with
      | none => none
      | some (s', e) => execP pool ws l s' (p.after a e)
    else none

theorem execP_run {pool : Nat → Bool} {ws : List Nat} {l : List Act} {s s' : Sel} {p p' : Spec}
    (x : PRun (pool · = true) s p) (e : execP pool ws l s p = some (s', p')) : PRun (pool · = true) s' p' := by
  induction l generalizing s p with
  | nil => simp only [execP, Option.some.injEq, Prod.mk.injEq] at e; rw [← e.1, ← e.2]; exact x
  | cons a l ih =>
    simp only [execP] at e
    split at e
    · rename_i hc
      split at e
      · cases e
      · rename_i hs
        refine ih (.step x hc.1 hc.2.1 ?_ hs) e
        have h3 := hc.2.2
        cases a <;> simp only [Pool, poolB] at h3 ⊢
        · rw [List.any_eq_true] at h3
          obtain ⟨w, -, hw⟩ := h3
          simp only [Bool.and_eq_true, decide_eq_true_eq] at hw
          exact ⟨w, hw.1, hw.2⟩
        · exact h3
    · cases e

/-- The example: two threads wait, one until 13 s and one until 12 s, since a timer came in between; then a third timer for
11 s comes in and signals both of them; then one for 11.5 s, which signals nobody as the threads do that anyway. -/
example : (execP (fun w => w = 5 || w = 6) [5, 6] [.allocTimer 1, .allocTimer 2, .allocTimer 3, .allocTimer 4, .start 1 (13, 0),
      .enter 5, .go 5, .go 5, .start 2 (12, 0), .enter 6, .go 6, .go 6, .start 3 (12, 500000)] s0 p0).map (fun x => x.1.waits)
      = some [⟨6, (12, 0), false⟩, ⟨5, (13, 0), true⟩]
    ∧ (execP (fun w => w = 5 || w = 6) [5, 6] [.allocTimer 1, .allocTimer 2, .allocTimer 3, .allocTimer 4, .start 1 (13, 0),
      .enter 5, .go 5, .go 5, .start 2 (12, 0), .enter 6, .go 6, .go 6, .start 3 (11, 0), .start 4 (11, 500000)] s0 p0).map
      (fun x => x.1.waits) = some [⟨6, (12, 0), true⟩, ⟨5, (13, 0), true⟩] := by
  constructor <;> decide +kernel

/-- C77, violated: a timer for 20 s is stopped with `sel_stop_timer_with_done` while the only thread waits.  The done handler
is to be called at once, but the thread waits until 20 s and is not signalled: `sel_stop_timer_with_done`, :990-1028, does
not call `wake_timer_sel_thread`. -/
theorem C77_done_violated : ∃ s p, Hist s0 p0 [(.stopDone 1, .ret 0), (.go 5, .wait 5 (20, 0)), (.go 5, .silent),
      (.enter 5, .silent), (.start 1 (20, 0), .ret 0), (.allocTimer 1, .silent)] s p
    ∧ (p.timer 1).busy = .pending ∧ s.waits = [⟨5, (20, 0), false⟩] ∧ s.clock = (10, 0) := by
  have key : (exec [.allocTimer 1, .start 1 (20, 0), .enter 5, .go 5, .go 5, .stopDone 1] s0 p0 []).any (fun x =>
      decide (x.2.2 = [(.stopDone 1, .ret 0), (.go 5, .wait 5 (20, 0)), (.go 5, .silent),
        (.enter 5, .silent), (.start 1 (20, 0), .ret 0), (.allocTimer 1, .silent)]
      ∧ (x.2.1.timer 1).busy = .pending ∧ x.1.waits = [⟨5, (20, 0), false⟩] ∧ x.1.clock = (10, 0))) = true := by
    decide +kernel
  rw [Option.any_eq_true] at key
  obtain ⟨⟨s, p, h⟩, e, hx⟩ := key
  simp only [decide_eq_true_eq] at hx
  obtain ⟨rfl, h1⟩ := hx
  exact ⟨s, p, exec_s0 e, h1⟩

/-- C77, violated: thread 6 is in the handler of the only timer when thread 5 begins to wait, with no timer in the heap for
100000 s.  The handler starts its timer again for 12 s, which is put into the heap when the handler returns, :1087-1091,
without waking anybody; then thread 6 leaves (say because what it waited for has happened).  Nobody is left to call the
handler at 12 s. -/
theorem C77_restart_violated : ∃ s p, Hist s0 p0 [(.go 6, .leave 6), (.back 6, .fin 6 1), (.start 1 (12, 0), .ret 0),
      (.go 5, .wait 5 (100010, 0)), (.go 5, .silent), (.enter 5, .silent), (.go 6, .handler 6 1), (.go 6, .silent),
      (.enter 6, .silent), (.start 1 (10, 0), .ret 0), (.allocTimer 1, .silent)] s p
    ∧ (p.timer 1).armed = some (12, 0) ∧ s.loc 6 = .out ∧ s.waits = [⟨5, (100010, 0), false⟩] := by
  have key : (exec [.allocTimer 1, .start 1 (10, 0), .enter 6, .go 6, .go 6, .enter 5, .go 5, .go 5, .start 1 (12, 0), .back 6,
      .go 6] s0 p0 []).any (fun x => decide (x.2.2 = [(.go 6, .leave 6), (.back 6, .fin 6 1), (.start 1 (12, 0), .ret 0),
      (.go 5, .wait 5 (100010, 0)), (.go 5, .silent), (.enter 5, .silent), (.go 6, .handler 6 1), (.go 6, .silent),
      (.enter 6, .silent), (.start 1 (10, 0), .ret 0), (.allocTimer 1, .silent)]
      ∧ (x.2.1.timer 1).armed = some (12, 0) ∧ x.1.loc 6 = .out ∧ x.1.waits = [⟨5, (100010, 0), false⟩])) = true := by
    decide +kernel
  rw [Option.any_eq_true] at key
  obtain ⟨⟨s, p, h⟩, e, hx⟩ := key
  simp only [decide_eq_true_eq] at hx
  obtain ⟨rfl, h1⟩ := hx
  exact ⟨s, p, exec_s0 e, h1⟩

/-! ## C79 -/

/-- C79.  While a runner is in the queue and any thread waits in the selector, a thread that waits has been signalled; and
when that thread goes on it takes all the runners of the queue. -/
theorem C79_runners {s : Sel} {p : Spec} (r : Run s p) (hq : s.queue ≠ []) {w : Nat} (hw : s.loc w = .waiting) :
    (∃ x ∈ s.waits, x.sig = true ∧ s.loc x.thread = .waiting)
    ∧ ∀ v, s.loc v = .waiting → ∃ s', s.back v = some (s', .silent) ∧ (s'.loc v).rest = s.queue ∧ s'.queue = [] := by
  refine ⟨?_, ?_⟩
  · rcases r.woken hq with h | ⟨x, hx, hs⟩
    · obtain ⟨x, hx, -⟩ := (r.listed w).mp hw
      rw [h] at hx; cases hx
    · exact ⟨x, hx, hs, (r.listed x.thread).mpr ⟨x, hx, rfl⟩⟩
  · intro v hv
    unfold Sel.back
    simp only [hv]
    exact ⟨_, rfl, by simp only [upd_same, Loc.rest], rfl⟩

/-- C79.  No thread begins to wait while a runner is in the queue. -/
theorem C79_nowait {s s' : Sel} {a : Act} {e : Ev} (h : s.step a = some (s', e)) {w : Nat} (h0 : s.loc w ≠ .waiting)
    (h1 : s'.loc w = .waiting) : s.queue = [] := by
  have f := step_frame h
  have moved : ∀ {v L}, L ≠ .waiting → s'.loc = upd s.loc v L → s.queue = [] := by
    intro v L hL e
    rw [e] at h1
    by_cases ev : w = v
    · rw [ev, upd_same] at h1; exact absurd h1 hL
    · rw [upd_ne _ _ ev] at h1; exact absurd h1 h0
  cases a <;> simp only at f
  case go v =>
    rcases f with ⟨_, -, -, -, -, h⟩ | ⟨-, -, L, f3, f4⟩
    · exact h
    · exact moved f3 f4
  case back v => rcases f with ⟨-, -, -, L, f3, f4⟩ | ⟨-, -, -, L, f3, f4⟩ <;> exact moved f3 f4
  case enter v => obtain ⟨-, -, L, f3, f4⟩ := f; exact moved f3 f4
  all_goals
    have := f.1
    rw [this] at h1
    exact absurd h1 h0

/-- The example: two threads wait and two runners come; only the thread that waits last is signalled, and it calls both. -/
example : (exec [.allocRunner 1, .allocRunner 2, .enter 5, .go 5, .go 5, .enter 6, .go 6, .go 6, .run 1, .run 2] s0 p0 []).map
      (fun x => (x.1.waits, x.1.queue)) = some ([⟨6, (100010, 0), true⟩, ⟨5, (100010, 0), false⟩], [1, 2])
    ∧ (exec [.allocRunner 1, .allocRunner 2, .enter 5, .go 5, .go 5, .enter 6, .go 6, .go 6, .run 1, .run 2, .back 6, .go 6,
      .back 6, .go 6, .back 6, .go 6] s0 p0 []).map (fun x => (x.2.2.map (·.2)).take 6)
      = some [.leave 6, .silent, .runner 6 2, .silent, .runner 6 1, .silent] := by
  constructor <;> decide +kernel

end Gensio.Sel
