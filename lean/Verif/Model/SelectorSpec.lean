import Verif.Model.Selector

/-!
# What timers and runners are, seen from outside

An account of the calls a program makes and of the calls it gets back, kept without the flags and the heap of
`Verif.Model.Selector`.  The theorems say that the selector only does what this account allows.
-/

namespace Gensio.Sel

open Gensio.Heap (upd)

/-- What the selector is doing with a timer. -/
inductive Busy
  /-- Nothing, or waiting for its time. -/
  | idle
  /-- Its handler or its done handler has been called by a thread and that is not finished. -/
  | running (w : Nat)
  /-- `sel_stop_timer_with_done` was accepted and the done handler has not been called. -/
  | pending
  /-- The timer was stopped or freed while in the state before. -/
  | stuck
  deriving DecidableEq

/-- A timer.  `alive` from the allocation until `sel_free_timer`; `armed` has the time of an accepted start since which the
timer has neither been stopped nor had its handler called. -/
structure TS where
  alive : Bool := false
  armed : Option Time := none
  busy : Busy := .idle
  deriving DecidableEq

/-- Waiting for its time, or for its done handler to be called. -/
def TS.queued (t : TS) : Prop := (t.armed ≠ none ∧ t.busy = .idle) ∨ t.busy = .pending

instance (t : TS) : Decidable t.queued := inferInstanceAs (Decidable (_ ∨ _))

/-- All of it.  `pend` says that a runner was accepted and its function not called since; `entered` has the time at which a
thread entered the selector, until it waits or leaves. -/
structure Spec where
  timer : Nat → TS
  pend : Nat → Bool
  ralive : Nat → Bool
  entered : Nat → Option Time
  clock : Time

def Spec.init (clock : Time) : Spec :=
  { timer := fun _ => {}, pend := fun _ => false, ralive := fun _ => false, entered := fun _ => none, clock := clock }

/-- What stopping does to the selector's business with a timer. -/
def Busy.stop : Busy → Busy
  | .pending => .stuck
  | b => b

def Spec.setT (p : Spec) (t : Nat) (v : TS) : Spec := { p with timer := upd p.timer t v }

/-- The account after an event of a thread in the selector. -/
def Spec.afterEv (p : Spec) : Ev → Spec
  | .silent | .ret _ => p
  | .runner _ r => { p with pend := upd p.pend r false }
  | .handler w t => p.setT t { p.timer t with armed := none, busy := .running w }
  | .done w t => p.setT t { p.timer t with busy := .running w }
  | .fin _ t => p.setT t { p.timer t with busy := .idle }
  | .wait w _ | .leave w => { p with entered := upd p.entered w none }

/-- The account after a step. -/
def Spec.after (p : Spec) (a : Act) (e : Ev) : Spec :=
  match a with
  | .tick t => { p with clock := t }
  | .allocTimer t => p.setT t { alive := true }
  | .start t time => if e = .ret 0 then p.setT t { p.timer t with armed := some time } else p
  | .stop t => p.setT t { p.timer t with armed := none, busy := (p.timer t).busy.stop }
  | .stopDone t => if e = .ret 0 then p.setT t { p.timer t with armed := none, busy := .pending } else p
  | .free t => p.setT t { alive := false, armed := none, busy := (p.timer t).busy.stop }
  | .allocRunner r => { p with ralive := upd p.ralive r true, pend := upd p.pend r false }
  | .run r => if e = .ret 0 then { p with pend := upd p.pend r true } else p
  | .freeRunner r => if e = .ret 0 then { p with ralive := upd p.ralive r false } else p
  | .enter w => { p with entered := upd p.entered w (some p.clock) }
  | .go _ | .back _ => p.afterEv e

/-- What a program may do: it uses only timers and runners it has allocated and not freed. -/
def Spec.allowed (p : Spec) : Act → Prop
  | .start t _ | .stop t | .stopDone t | .free t => (p.timer t).alive = true
  | .run r | .freeRunner r => p.ralive r = true
  | _ => True

/-- What may happen to timers. -/
def Spec.timerOk (p : Spec) : Act → Ev → Prop
  | .start t _, e => ((p.timer t).queued ∧ e = .ret eBusy) ∨ (¬ (p.timer t).queued ∧ e = .ret 0)
  | .stop t, e => ((p.timer t).armed = none ∧ e = .ret eTimedOut) ∨ ((p.timer t).armed ≠ none ∧ e = .ret 0)
  | .stopDone t, e => ((p.timer t).armed ≠ none ∧ (p.timer t).busy = .idle ∧ e = .ret 0)
      ∨ (((p.timer t).busy = .pending ∨ (p.timer t).busy = .stuck) ∧ e = .ret eBusy)
      ∨ ((p.timer t).busy ≠ .pending ∧ (p.timer t).busy ≠ .stuck ∧ ((p.timer t).armed = none ∨ (p.timer t).busy ≠ .idle)
        ∧ e = .ret eTimedOut)
  | .free _, e => e = .ret 0
  | .go w, .handler w' t => w' = w ∧ (p.timer t).alive = true ∧ (p.timer t).busy = .idle
      ∧ ∃ time, (p.timer t).armed = some time ∧ tcmp time p.clock ≤ 0
        ∧ ∀ t' time', (p.timer t').armed = some time' → (p.timer t').busy = .idle → tcmp time time' ≤ 0
  | .go w, .done w' t => w' = w ∧ (p.timer t).busy = .pending
  | .back w, .fin w' t => w' = w ∧ (p.timer t).busy = .running w
  | _, .handler .. => False
  | _, .done .. => False
  | _, .fin .. => False
  | _, _ => True

/-- No timer is left behind: a thread that waits or leaves without having waited has dealt with all timers that were due when
it entered; it waits no longer than until the first timer is due, and not at all when a done handler is to be called. -/
def Spec.dueOk (p : Spec) : Ev → Prop
  | .wait w wake => p.entered w ≠ none ∧ (∀ t, (p.timer t).busy ≠ .pending)
      ∧ ∀ t time, (p.timer t).armed = some time → (p.timer t).busy = .idle →
        tcmp wake time ≤ 0 ∧ ∀ e, p.entered w = some e → tcmp e time < 0
  | .leave w => ∀ t time, (p.timer t).armed = some time → (p.timer t).busy = .idle →
      ∀ e, p.entered w = some e → tcmp e time < 0
  | _ => True

/-- What may happen to runners. -/
def Spec.runnerOk (p : Spec) : Act → Ev → Prop
  | .run r, e => (p.pend r = true ∧ e = .ret eBusy) ∨ (p.pend r = false ∧ e = .ret 0)
  | .freeRunner r, e => (p.pend r = true ∧ e = .ret eBusy) ∨ (p.pend r = false ∧ e = .ret 0)
  | .go w, .runner w' r => w' = w ∧ p.pend r = true ∧ p.ralive r = true
  | _, .runner .. => False
  | _, _ => True

/-- A selector that has come from a new one by steps that can happen and are allowed, with the account of them. -/
inductive Run : Sel → Spec → Prop
  | init (val : Nat → Tv) (left right up : Nat → Option Nat) (inUse : Nat → Bool) (clock : Time) :
      Run (Sel.init val left right up inUse clock) (Spec.init clock)
  | step {s s' : Sel} {p : Spec} {a : Act} {e : Ev} : Run s p → s.can a = true → p.allowed a →
      s.step a = some (s', e) → Run s' (p.after a e)

end Gensio.Sel
