/-!
# The timers of an AX.25 channel, `lib/gensio_ax25.c`

T1, T2 and T3 of `struct ax25_chan` share one timer of the OS.  A step is what is done with the channel lock held, or a call of the
timeout handler by the OS, or the passing of time.  The OS timer is the one of `os_unix_selector.c` (C74): a handler is not called while
it runs, and a start from inside the handler takes effect when the handler returns.

Simplifications:
* Times are whole milliseconds, and time does not pass while the lock is held.  `now` is not 0 (the monotonic clock after boot).
* What the channel does in `ax25_t1_timeout` and the others, and what other threads do while those have released the lock for a
  callback, are steps between `enter` and `finish`; nothing says when they may come.
* The state of the channel is reduced to what the timer code asks for and whether the channel is on `base->chans`.
* `chan->t1 = chan->t1v`, :2281 and :2319, is left out because the call after it sets `t1` again.
-/
namespace Gensio.Ax25Timer

/-- `AX25_CHAN_CLOSED`; the states in which the channel is on `base->chans`; the others. -/
inductive St | closed | link | other
deriving Repr, DecidableEq

/-- Where the timeout handler is, :2366-:2418, and the time it read, :2374: not yet locked; before the test of T2; before the test of T3;
after it. -/
inductive Hnd | called (t : Nat) | at2 (t : Nat) | at3 (t : Nat) | last (t : Nat)
deriving Repr, DecidableEq

/-- The fields of `struct ax25_chan`, :663-:780.  `armed` is when the OS timer expires; `refs` are the references to the channel
taken for the timer.  `late` is not in the code: the longest time from a call of the handler to the timer started by it. -/
structure T where
  now : Nat
  state : St
  t1 : Nat
  t2 : Nat
  t3 : Nat
  curr : Nat
  armed : Option Nat
  hnd : Option Hnd
  refs : Nat
  late : Nat
deriving Repr, DecidableEq

/-- `ax25_chan_deref`; releasing a reference that was not taken is undefined. -/
def deref (s : T) : Option T := if s.refs = 0 then none else some { s with refs := s.refs - 1 }

/-- `ax25_stop_timer`, :2107-:2126.  The assertion cannot fail, `sel_stop_timer` has no other error. -/
def stopTimer (s : T) : Option T :=
  if s.curr ≠ 0 then
    match s.armed with
    | some _ => (deref { s with armed := none }).map fun s => { s with curr := 0 }
    | none => some s
  else some { s with armed := none }

/-- `start_timer` for a time relative to now, `os_unix.c:783-794` and `os_unix_selector.c:946-975`: an error, which is an assertion in
the callers, if the timer is running and not in its handler. -/
def startTimer (s : T) (rel : Nat) : Option T :=
  if s.armed ≠ none ∧ s.hnd = none then none else some { s with armed := some (s.now + rel) }

/-- `ax25_chan_check_new_timeout`, :2128-:2157. -/
def checkNew (s : T) (value : Nat) : Option T :=
  if s.state = .closed then some s
  else if s.curr ≠ 0 ∧ value ≥ s.curr then some s
  else (stopTimer s).bind fun s => (startTimer { s with curr := value } (value - s.now)).map fun s => { s with refs := s.refs + 1 }

/-- `ax25_chan_reset_data`, :1966-:2001. -/
def reset (s : T) : T := { s with t1 := 0, t2 := 0, t3 := 0, curr := 0 }

/-- The steps. -/
inductive Op
  | tick (d : Nat)
  /-- `ax25_chan_start_t1` and so on, :2179-:2207, with the time of the timer. -/
  | start1 (v : Nat) | start2 (v : Nat) | start3 (v : Nat)
  /-- `ax25_chan_stop_t1` and so on, :2209-:2228. -/
  | stop1 | stop2 | stop3
  /-- `ax25_chan_prestart_connect`, :2479-:2487, for a closed channel, or a new one. -/
  | prestart
  /-- A UA for a connected channel, :3015-:3025, with `ign_emb_ua` off. -/
  | ua
  /-- `ax25_chan_move_to_closed`, :1520-:1541, with the state set. -/
  | shut
  /-- The same for an open that failed, :2272-:2275. -/
  | openFail
  /-- `ax25_chan_report_close`, :1468-:1476. -/
  | reportClose
  /-- The OS timer expires and the handler is called. -/
  | expire
  /-- The handler to before the test of T2, :2374-:2388. -/
  | enter
  /-- The test of T2 and of T3, :2389-:2396. -/
  | chk2 | chk3
  /-- The rest, :2397-:2418. -/
  | finish
deriving Repr, DecidableEq

/-- Whether a step can happen. -/
def can (s : T) : Op → Bool
  | .prestart => s.state = .closed
  | .ua | .shut | .openFail => s.state = .link
  | .reportClose => s.state = .other
  | .expire =>
    match s.hnd, s.armed with
    | none, some e => e ≤ s.now
    | _, _ => false
  | .enter => match s.hnd with | some (.called _) => true | _ => false
  | .chk2 => match s.hnd with | some (.at2 _) => true | _ => false
  | .chk3 => match s.hnd with | some (.at3 _) => true | _ => false
  | .finish => match s.hnd with | some (.last _) => true | _ => false
  | _ => true

/-- A step; `none` is undefined behaviour or a failed assertion. -/
def step (s : T) : Op → Option T
  | .tick d => some { s with now := s.now + d }
  | .start1 v => checkNew { s with t1 := s.now + v } (s.now + v)
  | .start2 v => checkNew { s with t2 := s.now + v } (s.now + v)
  | .start3 v => checkNew { s with t3 := s.now + v } (s.now + v)
  | .stop1 => some { s with t1 := 0 }
  | .stop2 => some { s with t2 := 0 }
  | .stop3 => some { s with t3 := 0 }
  | .prestart => some { reset s with state := .link }
  | .ua => some (reset s)
  | .shut => stopTimer { s with state := .other }
  | .openFail => stopTimer { s with state := .closed }
  | .reportClose => (stopTimer { s with state := .closed }).map reset
  | .expire => some { s with armed := none, hnd := some (.called s.now) }
  | .enter =>
    match s.hnd with
    | some (.called t) =>
      (stopTimer s).bind fun s =>
        let s := { s with curr := 1 }
        if s.state = .closed then deref { s with hnd := none }
        else some { s with t1 := if s.t1 ≤ t then 0 else s.t1, hnd := some (.at2 t) }
    | _ => none
  | .chk2 =>
    match s.hnd with
    | some (.at2 t) => some { s with t2 := if s.t2 ≤ t then 0 else s.t2, hnd := some (.at3 t) }
    | _ => none
  | .chk3 =>
    match s.hnd with
    | some (.at3 t) => some { s with t3 := if s.t3 ≤ t then 0 else s.t3, hnd := some (.last t) }
    | _ => none
  | .finish =>
    match s.hnd with
    | some (.last t) =>
      let c := s.t1
      let c := if s.t2 ≠ 0 ∧ s.t2 < c then s.t2 else c
      let c := if s.t3 ≠ 0 ∧ s.t3 < c then s.t3 else c
      let s := { s with curr := c }
      (if c ≠ 0 then (startTimer s (c - t)).map fun s => { s with refs := s.refs + 1, late := max s.late (s.now - t) } else some s).bind fun s =>
        deref { s with hnd := none }
    | _ => none

/-- A channel that was allocated at time `now`. -/
def init (now : Nat) : T := ⟨now, .closed, 0, 0, 0, 0, none, none, 0, 0⟩

/-- The states reached from it by steps that can happen. -/
inductive Reach (n : Nat) : T → Prop
  | init : Reach n (init n)
  | step {s s' : T} {o : Op} : Reach n s → can s o = true → step s o = some s' → Reach n s'

/-- The run of a list of steps. -/
def run (s : T) : List Op → Option T
  | [] => some s
  | o :: os => if can s o then (step s o).bind fun s => run s os else none

/-! ### The time of T1 -/

/-- The fields for the time of T1, `unsigned int`; `t1` is when it expires. -/
structure Rtt where
  srt : Nat
  t1v : Nat
  t1 : Nat
  retry : Nat
deriving Repr, DecidableEq

/-- `ax25_chan_recalc_t1`, :2234-:2256, at time `now`, all in 32 bit `unsigned int` but `diff`; `none` is a shift of an `int` by 31 or more. -/
def recalc (r : Rtt) (now : Nat) (expiry : Bool) : Option Rtt :=
  let diff := min (r.t1 - now) r.t1v
  if r.retry = 0 then
    let srt := ((7 * r.srt % 4294967296 / 8 + r.t1v / 8) % 4294967296 + 4294967296 - diff / 8) % 4294967296
    some { r with srt := srt, t1v := srt * 2 % 4294967296 }
  else if expiry then
    if r.retry + 1 ≥ 31 then none
    else some { r with t1v := 2 ^ (r.retry + 1) * r.srt % 4294967296 }
  else some r

/-- A received frame that acknowledges everything sent, with the peer not busy: `ax25_chan_check_i_frame_acked`, :3369-:3373. -/
def ackAll (r : Rtt) (now : Nat) : Option Rtt := (recalc r now false).map fun r => { r with t1 := 0 }

/-- A sequence of such frames, with the times they come. -/
def acks (r : Rtt) : List Nat → Option Rtt
  | [] => some r
  | n :: ns => (ackAll r n).bind fun r => acks r ns

/-- T1 started, :2179-:2187. -/
def startT1 (r : Rtt) (now : Nat) : Rtt := { r with t1 := now + r.t1v }

/-- Exchanges: T1 is started at the first time of each pair and everything acknowledged at the second. -/
def exchanges (r : Rtt) : List (Nat × Nat) → Option Rtt
  | [] => some r
  | (a, b) :: ns => (ackAll (startT1 r a) b).bind fun r => exchanges r ns

end Gensio.Ax25Timer
