/-!
# The filter that measures throughput

`lib/gensio_perf.c` :19-519.  The filter writes `write_len` bytes of its own to the lower layer, throws away what comes from both sides,
counts, and gives the upper layer reports as text.  Each section between lock and unlock is one step, so the handler of a write
(`ulBegin`, `ulEnd`) and of a read (`llBegin`, `llEnd`) may run while other things happen; `gensio_base.c` lets at most one of each run.
Counters are natural numbers (the code has 64 bits).  The text of a report is any function `txt` of its contents (the format strings of
:190-203 and :321-326).  A result `none` is a read behind the end of `print_buffer`.
-/
namespace Gensio.Perf

/-- `gensio_time`. -/
structure T where
  secs : Int
  nsecs : Int
deriving DecidableEq, Repr

/-- The loop of :169-172 and :176-179. -/
def norm (s n : Int) : T := if n < 0 then norm (s - 1) (n + 1000000000) else ⟨s, n⟩
termination_by (-n).toNat

/-- :167-172 and :174-179: the time from the start. -/
def T.since (e s : T) : T := norm (e.secs - s.secs) (e.nsecs - s.nsecs)

/-- The milliseconds that are printed, :198 and :202, with the division of C. -/
def T.ms (t : T) : Int := Int.tdiv (t.nsecs + 500000) 1000000

/-- The contents of a report: the one of the timer, :321-326, or the last one, :190-203, from the view of the user. -/
inductive Rep
  | tick (wrote read secs : Nat)
  | total (wrote read : Nat) (wtime rtime : T)
deriving DecidableEq, Repr

/-- The arguments, :489-519. -/
structure Cfg where
  wbuf : Nat := 1024
  wlen : Nat := 0
  expect : Nat := 0

/-- `struct perf_filter`, :19-50.  `inUl` is the count offered to the lower layer and `inLl` the text offered to the upper one while a handler
runs.  `reps`, `given`, `sent`, `got` and `rem` are notes: the reports made, the text taken by the upper layer, the bytes taken by the
lower layer, the bytes that came from it, and whether `GE_REMCLOSE` was returned. -/
structure F where
  left : Nat
  expect : Nat
  readCount : Nat := 0
  start : T := ⟨0, 0⟩
  rEnd : Option T := none
  wEnd : Option T := none
  ticks : Nat := 0
  sinceR : Nat := 0
  sinceW : Nat := 0
  pend : Nat := 0
  pos : Nat := 0
  buf : List UInt8 := []
  fin : Bool := false
  inUl : Option Nat := none
  inLl : Option (List UInt8) := none
  reps : List Rep := []
  given : List UInt8 := []
  sent : Nat := 0
  got : Nat := 0
  rem : Bool := false
deriving DecidableEq, Repr

/-- `gensio_perf_filter_raw_alloc`, :451-487. -/
def init (c : Cfg) : F := { left := c.wlen, expect := c.expect }

variable (txt : Rep → List UInt8) (c : Cfg)

/-- A report is printed: `snprintf` writes at most 1023 characters and returns the whole length. -/
def F.print (f : F) (r : Rep) : F :=
  { f with buf := (txt r).take 1023, pend := (txt r).length, pos := 0, reps := f.reps ++ [r] }

/-- `perf_ul_read_pending`, :68-74. -/
def F.ulPending (f : F) : Bool := f.pend ≠ 0

/-- `perf_ll_write_pending`, :76-92. -/
def F.llPending (f : F) : Bool :=
  (c.wlen > 0 ∧ ¬(f.fin ∧ (f.pend > 0 ∨ f.expect > 0))) ∨ (c.expect ≠ 0 ∧ f.expect = 0 ∧ f.pend = 0)

/-- `set_read_end_time`, :135-142. -/
def F.setREnd (f : F) (now : T) : F := if f.rEnd.isNone then { f with rEnd := some now } else f

/-- `set_write_end_time`, :144-151. -/
def F.setWEnd (f : F) (now : T) : F := if f.wEnd.isNone then { f with wEnd := some now } else f

/-- `perf_handle_end_check`, :153-208. -/
def F.endCheck (f : F) (now : T) : F :=
  if f.fin ∧ f.pend = 0 then f
  else
    let f := (f.setREnd now).setWEnd now
    if !f.fin ∧ f.pend = 0 then
      let r := (f.rEnd.getD now).since f.start
      let w := (f.wEnd.getD now).since f.start
      { ({ f with rEnd := some r, wEnd := some w } : F).print txt (.total (c.wlen - f.left) f.readCount w r) with fin := true }
    else f

/-- What happens. -/
inductive Op
  | opened (now : T) | ulBegin (now : T) | ulEnd (ans : Option Nat) (now : T) | llBegin (n : Nat) (now : T) | llEnd (ans : Option Nat)
  | tick | ioErr (now : T) | cleanup
deriving DecidableEq, Repr

/-- `perf_ul_write`, :216-266, to the call of the handler, or whole. -/
def F.ulBegin (f : F) (now : T) : F :=
  if f.left > 0 then { f with inUl := some (min f.left c.wbuf) }
  else if c.wlen ≠ 0 ∨ c.expect ≠ 0 then
    if !f.fin ∧ f.expect = 0 then f.endCheck txt c now
    else if f.fin ∧ f.pend = 0 then { f with rem := true }
    else f
  else f

/-- :244-256: the handler took `ans` bytes, or returned an error. -/
def F.ulEnd (f : F) (o : Nat) (ans : Option Nat) (now : T) : F :=
  let f := { f with inUl := none }
  match ans with
  | none => f
  | some n =>
    let n := if n > o then o else n
    let f := { f with sinceW := f.sinceW + n, left := f.left - n, sent := f.sent + n }
    if f.left = 0 then f.setWEnd now else f

/-- `perf_ll_write`, :268-311, to the call of the handler, or whole. -/
def F.llBegin (f : F) (n : Nat) (now : T) : Option F :=
  let f := { f with readCount := f.readCount + n, sinceR := f.sinceR + n, got := f.got + n, expect := if n > f.expect then 0 else f.expect - n }
  let f := if c.expect ≠ 0 ∧ f.expect = 0 then f.setREnd now else f
  if f.pend ≠ 0 then
    if f.pend > 1024 then none else some { f with inLl := some ((f.buf.drop f.pos).take (f.pend - f.pos)) }
  else some f

/-- :296-306: the handler took `ans` bytes of the text, or returned an error. -/
def F.llEnd (f : F) (t : List UInt8) (ans : Option Nat) : F :=
  let f := { f with inLl := none }
  match ans with
  | none => f
  | some n =>
    let n := if n > f.pend - f.pos then f.pend - f.pos else n
    let f := { f with pos := f.pos + n, given := f.given ++ t.take n }
    if f.pos = f.pend then { f with pend := 0 } else f

/-- `perf_filter_timeout`, :313-337. -/
def F.tick (f : F) : F :=
  let f := { f with ticks := f.ticks + 1 }
  if f.pend = 0 then { f.print txt (.tick f.sinceW f.sinceR f.ticks) with sinceW := 0, sinceR := 0, ticks := 0 } else f

/-- `perf_filter_cleanup`, :355-370.  The notes start again; `print_pos`, the buffer and the start stay. -/
def F.cleanup (f : F) : F :=
  { left := c.wlen, expect := c.expect, start := f.start, pos := f.pos, buf := f.buf }

/-- One step; what `gensio_base.c` never does changes nothing. -/
def step (f : F) : Op → Option F
  | .opened now => some { f with start := now }
  | .ulBegin now => if f.inUl = none then some (f.ulBegin txt c now) else some f
  | .ulEnd ans now => match f.inUl with
    | some o => some (f.ulEnd o ans now)
    | none => some f
  | .llBegin n now => if f.inLl = none then f.llBegin c n now else some f
  | .llEnd ans => match f.inLl with
    | some t => some (f.llEnd t ans)
    | none => some f
  | .tick => some (f.tick txt)
  | .ioErr now => some (f.endCheck txt c now)
  | .cleanup => if f.inUl = none ∧ f.inLl = none then some (f.cleanup c) else some f

/-- Steps one after the other. -/
def run (f : F) : List Op → Option F
  | [] => some f
  | o :: os => (step txt c f o).bind fun f => run f os

/-! ## The side of `gensio_base.c` that asks for more

The write side of an open gensio without an error over this filter: `basen_ll_write_ready` (:1778-1843 of `gensio_base.c`), the timer
(:1460-1491), with the upper layer not asking to write.  `takes n` says how much of `n` bytes the lower layer takes. -/

/-- `left` is what the filter has to write, `can` is `ll_can_write`, `en` whether the lower layer calls when it can write. -/
structure B where
  left : Nat
  can : Bool := false
  en : Bool := true
deriving DecidableEq, Repr

/-- One `filter_ul_write` with `basen_write_data_handler` (:622-639): the write may not be taken whole. -/
def B.write (wbuf : Nat) (takes : Nat → Nat) (b : B) : B :=
  let n := min b.left wbuf
  if b.left = 0 then b else { b with left := b.left - min n (takes n), can := b.can && !(decide (min n (takes n) < n)) }

/-- `basen_filter_ul_push`, :641-659. -/
def B.push (wbuf : Nat) (takes : Nat → Nat) (b : B) : B := if b.can then b.write wbuf takes else b

/-- `basen_set_ll_enables`, :574-585, for the write side. -/
def B.enable (b : B) : B := { b with en := !b.can }

/-- `basen_ll_write_ready`. -/
def B.ready (wbuf : Nat) (takes : Nat → Nat) (b : B) : B :=
  ((({ b with can := true } : B).write wbuf takes).push wbuf takes).enable

/-- `basen_timeout`: one write a second. -/
def B.timer (wbuf : Nat) (takes : Nat → Nat) (b : B) : B := (b.push wbuf takes).enable

end Gensio.Perf
