/-!
# The keepopen filter, `lib/gensio_keepopen.c`

`keepopen` makes its child look open for ever: an open is always reported as a success, and when the child fails it is closed and opened
again after `retry-time`.  A step is what is done with the lock held; a callback into the user, or a log, is made without the lock, so
it is a place where a thread waits between two steps and any other step may come.

Simplifications:
* The child is reduced to four states and its two enables.  It makes one callback at a time.  A child that answers `gensio_close` with
  an error is closed.  A child that was closed before it reported its open may report that open before it reports the close
  (`gensio_close(3)` leaves that open).
* The OS timer is the one of `os_unix_selector.c` (C74): the handler is not called while it runs, and a start inside the handler takes
  effect when it returns.
* `open_done` and `close_done` are not NULL and are named by numbers; `user_data`, the other events (:421) and the other functions
  (:647-:650) are passed on and left out.  `KEEPN_CHILD_CLOSED_IN_OPEN` is never entered.
* `log` is not in the code: what the user asked for and what it was told.
-/
namespace Gensio.Keepopen

/-- `enum keepn_state`, :133-:143. -/
inductive St | closed | inOpen | openInitFail | opened | inClose | childErrClose | childClosed | closeStopTimer
deriving Repr, DecidableEq

/-- The child: `closing late` is between `gensio_close` and its callback, `late` if the open was not reported before. -/
inductive Child | closed | opening | opened | closing (late : Bool)
deriving Repr, DecidableEq

/-- Where a callback of the child waits: :310-:314, :324-:327, :343-:345 of `keepn_open_done`; :281-:283 and :294-:297 called from
`keepn_close_done`; :399-:401. -/
inductive Cc | none | errLog | okLog | openCb | closeOpenCb | closeCb | ioLog
deriving Repr, DecidableEq

/-- Where the handler of the timer waits: before the lock, :430; :281-:283 called from :433; the same called from :450; :294-:297
called from :452; before the log, :437. -/
inductive Hnd | none | called | failCb | stopOpenCb | stopCloseCb | tail
deriving Repr, DecidableEq

/-- A request of the user and whether it was accepted, a callback to the user, or the error in the log of :401. -/
inductive Ev
  | openRet (id : Nat) (ok : Bool) | openCb (id : Nat) | closeRet (id : Nat) (ok : Bool) | closeCb (id : Nat) | free
  | setRx (b : Bool) | setTx (b : Bool) | ioErr (child logged : Nat)
deriving Repr, DecidableEq

/-- `struct keepn_data`, :145-:175, the child, and where the threads are.  `pass` is a call of the user between :637 and :649.
`gone`: the user has called `gensio_free`; `freed`: `keepn_finish_free` was called. -/
structure K where
  state : St
  ref : Nat
  lastErr : Nat
  rx : Bool
  tx : Bool
  openDone : Option Nat
  closeDone : Option Nat
  armed : Bool
  hnd : Hnd
  child : Child
  childRx : Bool
  childTx : Bool
  cc : Cc
  pass : Option (Bool × Bool)
  gone : Bool
  freed : Bool
  log : List Ev
deriving Repr, DecidableEq

/-- `keepopen_gensio_alloc`, :654-:706. -/
def init : K :=
  { state := .closed, ref := 1, lastErr := 0, rx := false, tx := false, openDone := none, closeDone := none, armed := false, hnd := .none, child := .closed, childRx := false, childTx := false, cc := .none, pass := none, gone := false, freed := false, log := [] }

/-- A line of the log. -/
def K.say (s : K) (e : Ev) : K := { s with log := s.log ++ [e] }

/-- `keepn_ref`, :205-:210. -/
def ref (s : K) : Option K := if s.ref = 0 then none else some { s with ref := s.ref + 1 }

/-- `keepn_deref`, :213-:218. -/
def deref (s : K) : Option K := if s.ref ≤ 1 then none else some { s with ref := s.ref - 1 }

/-- `keepn_unlock_and_deref`, :220-:231. -/
def unlockDeref (s : K) : Option K :=
  if s.ref = 0 then none
  else if s.ref = 1 then some { s with ref := 0, freed := true }
  else some { s with ref := s.ref - 1 }

/-- `keepn_start_zero_timer` and `keepn_start_timer`, :233-:249.  The assertion fails if the timer runs and this is not its handler,
`os_unix_selector.c:946-975`. -/
def startTimer (s : K) : Option K :=
  (ref s).bind fun s => if s.armed ∧ s.hnd = .none then none else some { s with armed := true }

/-- `keepn_cancel_timer`, :251-:266. -/
def cancelTimer (s : K) : Option K :=
  if s.armed then (startTimer { s with armed := false }).bind deref else some s

/-- `gensio_open` of the child, whose answer is `cerr`; only a closed one can be opened. -/
def openChild (s : K) (cerr : Nat) : Option K :=
  if cerr ≠ 0 ∨ s.child ≠ .closed then none else some { s with child := .opening }

/-- `gensio_close` of the child, whose answer is `cerr`: the child and whether it will call back. -/
def closeChild (c : Child) (cerr : Nat) : Child × Bool :=
  match c with
  | .opened => if cerr = 0 then (.closing false, true) else (.closed, false)
  | .opening => if cerr = 0 then (.closing true, true) else (.closed, false)
  | c => (c, false)

/-- What `gensio_close` of the child returned: the answer, or `GE_NOTREADY` (3), if it did not accept. -/
def closeErr (c : Child) (cerr : Nat) : Nat := if (closeChild c cerr).2 then 0 else if cerr = 0 then 3 else cerr

/-- :333-:346, the end of `keepn_open_done`. -/
def openReport (s : K) : K :=
  match s.openDone with
  | some id => { (s.say (.openCb id)) with openDone := none, cc := .openCb }
  | none => { s with cc := .none }

/-- :329-:331, with the end of `keepn_open_done`. -/
def openFinish (s : K) : K := openReport { s with childTx := s.tx, childRx := s.rx, state := .opened }

/-- :315-:316, with the end of `keepn_open_done`. -/
def openFailed (s : K) : Option K := (startTimer { s with state := .childClosed }).map openReport

/-- `keepn_open_done`, :300-:353, up to the first place where the lock is released. -/
def openDoneCb (s : K) (err : Nat) : Option K :=
  match s.state with
  | .inOpen =>
    if err ≠ 0 then some { s with lastErr := err, cc := .errLog }
    else if s.lastErr ≠ 0 then some { s with cc := .okLog }
    else some (openFinish s)
  | _ => none

/-- `keepn_check_close_done`, :287-:298, up to the callback, with the state set before, :364 and :451. -/
def reportClose (s : K) : K :=
  match s.closeDone with
  | some id => { (s.say (.closeCb id)) with state := .closed, closeDone := none }
  | none => { s with state := .closed }

/-- `keepn_close_done`, :355-:377, up to the first place where the lock is released. -/
def closeDoneCb (s : K) : Option K :=
  match s.state with
  | .inClose =>
    match s.openDone with
    | some id => some { (s.say (.openCb id)) with openDone := none, cc := .closeOpenCb }
    | none => some { reportClose s with cc := .closeCb }
  | .childErrClose => (startTimer { s with state := .childClosed }).bind unlockDeref
  | _ => none

/-- `keepn_handle_io_err`, :379-:405. -/
def handleIoErr (s : K) (err cerr : Nat) : Option K :=
  if s.state ≠ .opened then some s
  else
    let (c, ok) := closeChild s.child cerr
    let s' := { (s.say (.ioErr err (closeErr s.child cerr))) with lastErr := err, child := c }
    if ok then ref { s' with state := .childErrClose }
    else (startTimer s').map fun s => { s with state := .childClosed }

/-- :434-:436. -/
def failFinish (s : K) : Option K :=
  ((startTimer { s with state := .childClosed }).bind unlockDeref).map fun s => { s with hnd := .tail }

/-- `keepn_retry_timeout`, :424-:459, up to the first place where the lock is released. -/
def retryTimeout (s : K) (cerr : Nat) : Option K :=
  match s.state with
  | .openInitFail =>
    match s.openDone with
    | some id => some { (s.say (.openCb id)) with openDone := none, hnd := .failCb }
    | none => failFinish s
  | .childClosed =>
    match openChild s cerr with
    | none => ((startTimer s).bind unlockDeref).map fun s => { s with hnd := .none }
    | some s => (unlockDeref { s with state := .inOpen }).map fun s => { s with hnd := .none }
  | .closeStopTimer =>
    match s.openDone with
    | some id => some { (s.say (.openCb id)) with openDone := none, hnd := .stopOpenCb }
    | none => some { reportClose s with hnd := .stopCloseCb }
  | _ => none

/-- `keepn_open`, :461-:488. -/
def keepnOpen (s : K) (id cerr : Nat) : Option K :=
  if s.state ≠ .closed then some (s.say (.openRet id false))
  else
    match openChild s cerr with
    | none =>
      (startTimer { s with lastErr := if cerr = 0 then 3 else cerr, state := .openInitFail }).map fun s =>
        { (s.say (.openRet id true)) with openDone := some id }
    | some s => some { (s.say (.openRet id true)) with lastErr := 0, state := .inOpen, openDone := some id }

/-- `keepn_close`, :490-:544, with the request logged. -/
def keepnClose (s : K) (id cerr : Nat) : Option K :=
  match s.state with
  | .opened | .inOpen =>
    let (c, ok) := closeChild s.child cerr
    let s' := { (s.say (.closeRet id ok)) with child := c, closeDone := some id }
    if ok then ref { s' with state := .inClose } else startTimer { s' with state := .closeStopTimer }
  | .openInitFail => some { (s.say (.closeRet id true)) with state := .closeStopTimer, closeDone := some id }
  | .childErrClose => some { (s.say (.closeRet id true)) with state := .inClose, closeDone := some id }
  | .childClosed =>
    (cancelTimer { s with state := .closeStopTimer }).map fun s => { (s.say (.closeRet id true)) with closeDone := some id }
  | _ => some (s.say (.closeRet id false))

/-- `keepn_close(ndata->io, NULL, NULL)` called from `keepn_free`, :570, for a lock that can be taken twice. -/
def freeClose (s : K) (cerr : Nat) : Option K :=
  let (c, ok) := closeChild s.child cerr
  let s' := { s with child := c, closeDone := none }
  if ok then ref s' else startTimer s'

/-- `keepn_free`, :546-:580.  `recLock`: a thread may take a lock it holds, which is so on Windows and not so on POSIX,
`os_unix.c:102-119`; otherwise :570 waits for ever. -/
def keepnFree (recLock : Bool) (s : K) (cerr : Nat) : Option K :=
  let s := { (s.say .free) with gone := true }
  match s.state with
  | .closed | .inClose | .childErrClose => unlockDeref { s with state := .closed }
  | .openInitFail | .closeStopTimer => unlockDeref { s with state := .closeStopTimer, openDone := none }
  | .inOpen | .opened => if recLock then (freeClose s cerr).bind fun s => unlockDeref { s with state := .closed } else none
  | .childClosed => (cancelTimer { s with state := .closeStopTimer }).bind unlockDeref

/-- The steps.  `cerr` is the answer of the child to the `gensio_open` or `gensio_close` made in the step, if there is one. -/
inductive Op
  | open (id cerr : Nat)
  | close (id cerr : Nat)
  | free (cerr : Nat)
  /-- `keepn_disable`, :582-:592. -/
  | disable
  /-- :634-:644, up to the call of the child, and that call, :649. -/
  | setRx (b : Bool) | setTx (b : Bool) | pass
  /-- A write the child answers with an error, :604-:607. -/
  | write (err cerr : Nat)
  /-- The child reports its open, with the enables it then has. -/
  | childOpen (err : Nat) (rx tx : Bool)
  /-- The child reports its open after it was closed. -/
  | childLate (err : Nat)
  | childClosed
  /-- The child reports a read error, :415-:418. -/
  | childErr (err cerr : Nat)
  /-- The callback of the child goes on. -/
  | childCont
  /-- The OS calls the handler of the timer; the handler takes the lock; the handler goes on. -/
  | fire | timeout (cerr : Nat) | timerCont
deriving Repr, DecidableEq

/-- When a step may come: the user does not use a gensio it has freed and makes one call that sets an enable at a time; the child makes
one callback at a time. -/
def can (s : K) : Op → Bool
  | .open .. | .close .. | .disable | .write .. => !s.gone
  | .free _ | .setRx _ | .setTx _ => !s.gone && s.pass.isNone
  | .pass => s.pass.isSome
  | .childOpen .. => !s.freed && s.child = .opening && s.cc = .none
  | .childLate _ => !s.freed && s.child = .closing true && s.cc = .none
  | .childClosed => !s.freed && (s.child = .closing true || s.child = .closing false) && s.cc = .none
  | .childErr err _ => !s.freed && err ≠ 0 && s.child = .opened && s.cc = .none
  | .childCont => s.cc ≠ .none
  | .fire => s.armed && s.hnd = .none
  | .timeout _ => s.hnd = .called
  | .timerCont => s.hnd ≠ .none && s.hnd ≠ .called

/-- A step; `none` is a failed assertion, a lock that is never got, or a use of freed memory. -/
def step (recLock : Bool) (s : K) (op : Op) : Option K :=
  if s.freed then none
  else match op with
  | .open id cerr => keepnOpen s id cerr
  | .close id cerr => keepnClose s id cerr
  | .free cerr => keepnFree recLock s cerr
  | .disable => some { s with state := .closed }
  | .setRx b => some { (s.say (.setRx b)) with rx := b, pass := some (false, b) }
  | .setTx b => some { (s.say (.setTx b)) with tx := b, pass := some (true, b) }
  | .pass =>
    match s.pass with
    | some (false, b) => some { s with childRx := b, pass := none }
    | some (true, b) => some { s with childTx := b, pass := none }
    | none => some s
  | .write err cerr => handleIoErr s err cerr
  | .childOpen err rx tx =>
    openDoneCb { s with child := if err = 0 then .opened else .closed, childRx := rx, childTx := tx } err
  | .childLate err => openDoneCb { s with child := .closing false } err
  | .childClosed => closeDoneCb { s with child := .closed }
  | .childErr err cerr => (handleIoErr s err cerr).map fun s' => if s.state = .opened then { s' with cc := .ioLog } else s'
  | .childCont =>
    match s.cc with
    | .none => some s
    | .errLog => openFailed s
    | .okLog => some (openFinish s)
    | .openCb | .ioLog => some { s with cc := .none }
    | .closeOpenCb => some { reportClose s with cc := .closeCb }
    | .closeCb => (unlockDeref s).map fun s => { s with cc := .none }
  | .fire => some { s with armed := false, hnd := .called }
  | .timeout cerr => retryTimeout s cerr
  | .timerCont =>
    match s.hnd with
    | .none | .called => some s
    | .failCb => failFinish s
    | .stopOpenCb => some { reportClose s with hnd := .stopCloseCb }
    | .stopCloseCb => (unlockDeref s).map fun s => { s with hnd := .none }
    | .tail => some { s with hnd := .none }

/-- The result of a list of steps: a fault, a step that may not come, or the state after it. -/
inductive Res | fault | cannot | ok (s : K)
deriving Repr, DecidableEq

/-- One step after the other. -/
def exec (recLock : Bool) : K → List Op → Res
  | s, [] => .ok s
  | s, op :: ops => if can s op then (match step recLock s op with | some s' => exec recLock s' ops | none => .fault) else .cannot

/-- The states after some steps allowed by `P`. -/
inductive Reach (recLock : Bool) (P : K → Op → Prop) : K → Prop
  | init : Reach recLock P init
  | step {s s' : K} (op : Op) : Reach recLock P s → can s op = true → P s op → step recLock s op = some s' → Reach recLock P s'

/-- `GENSIO_FUNC_WRITE_SG`, :603-:619: the answer of the child (error and count), `discard-badwrites`, the lengths in the list, and
whether the caller gave a `count`; what is returned and what `*count` is after it.  `none` is a write through a NULL pointer.
`gensiods` has 64 bits. -/
def writeSg (discard : Bool) (child : Nat × Nat) (lens : List Nat) (count : Bool) : Option (Nat × Option Nat) :=
  if child.1 ≠ 0 then
    if count then some (0, some (if discard then lens.foldl (fun a n => (a + n) % 18446744073709551616) 0 else 0)) else none
  else some (0, if count then some child.2 else none)

end Gensio.Keepopen
