/-!
# The accepter that makes connections, `lib/gensio_conacc.c`

An accepter (`struct conaccna_data`) opens a child gensio, hands it to the user as a new connection (`struct conaccn_data`),
and opens another when that is closed.  A step is what is done with the lock of the accepter held; callbacks into the user
are made without it, so a thread in a callback waits between two steps and any other step may come.  A thread that waits is
one of the counters of `Na` or the `pc` or `mid` of a connection.  `none` is a failed assertion, a use of freed memory, or
a thread that waits for a lock it holds.

Simplifications:
* The upper half, `lib/acc.c`, is its state (`base`), the report of a finished shutdown, which may take any time, and the
  release of its memory, which waits for what it holds references for; it is modelled in `Verif.Model.Acc`.
* The child gensio does what `gensio_base.c` does: an open that was started is reported once, with an error if a close was
  asked for, and then a close that was accepted once; a close is accepted when it is opening or open; freeing it drops all
  reports that have not begun.  Its data are passed through by `conaccn_func` and `conaccn_event` and left out.
* A timer that was taken out by the selector is not running; the time between the end of its handler and the return to the
  selector is left out.  A timer that is being stopped can not be started.
* All failures of `conacc_start` are one (`ok = false`), as are those of the allocation of the gensio in `conaccn_open_done`.
* `log`, `user` and `rep` are not in the code.
-/
namespace Gensio.Conacc

/-- `enum conaccn_state`, gensio_conacc.c:18-23. -/
inductive CSt | closed | inOpen | opened | inClose
deriving DecidableEq, Repr

/-- The child gensio. -/
inductive Ch | opening | opened | closing | closed
deriving DecidableEq, Repr

/-- Where a thread in `conaccn_open_done` is, gensio_conacc.c:654-739: not there; before :660; before :676; before :692;
before :728. -/
inductive Pc | idle | od1 (err : Bool) | od2 | od3 (err : Bool) | od4
deriving DecidableEq, Repr

/-- `struct conaccn_data`, gensio_conacc.c:27-44, and the child gensio.  `opn`: the child has yet to report its open.  `shut`:
its close is reported to `conaccn_shutdown_close_done`, otherwise to `conaccn_close_done`.  `mid`: a thread is in
`conaccn_close_done` after the callback, :512.  `user`: the user has the gensio and has not freed it.  `gone`: the memory was
freed. -/
structure Conn where
  st : CSt := .closed
  ref : Nat := 1
  na : Bool := true
  io : Bool := false
  cdone : Option Nat := none
  ch : Ch := .closed
  opn : Bool := false
  shut : Bool := false
  pc : Pc := .idle
  mid : Bool := false
  user : Bool := false
  gone : Bool := false
deriving DecidableEq, Repr

/-- `enum conaccna_state`, gensio_conacc.c:46-241. -/
inductive NSt
  | shutdown | disabled | opening | ready | waiting | openShutdown | inShutdown | openDisable | inDisable | inDisableRestart
  | dead
deriving DecidableEq, Repr

/-- The state of the upper half, `enum basena_state`, acc.c:24-28. -/
inductive Base | closed | opened | inShut
deriving DecidableEq, Repr

/-- The timer for retries. -/
inductive Tm | idle | running | stopping
deriving DecidableEq, Repr

/-- What the user asked for and was told. -/
inductive Ev
  | shutReq | shutCb | enReq (id : Nat) | enCb (id : Nat) | newConn (i : Nat) | closed (id : Nat)
deriving DecidableEq, Repr

/-- `struct conaccna_data`, gensio_conacc.c:243-271.  `shDone`: `shutdown_done` is set.  `rep`: the upper half was told that the
shutdown is done and has not yet reported it.  `freed`: the user freed the accepter.  `accGone`: the upper half is freed.
`defer`: `deferred_op_pending`.  Threads: `deferSw` in `conaccna_do_deferred` after the callback, :417; `finEn` in
`conaccna_finish_shutdown` after the callback, :399; `drops` that have only to give back their reference; `timers` at the start
of `conaccna_retry_timeout`; `sc` in `conaccn_shutdown_close_done` before the lock, :895. -/
structure Na where
  retry : Bool
  base : Base := .closed
  rep : Bool := false
  freed : Bool := false
  accGone : Bool := false
  st : NSt := .shutdown
  enabled : Bool := true
  enDone : Option Nat := none
  shDone : Bool := false
  conErr : Bool := false
  defer : Bool := false
  tm : Tm := .idle
  ref : Nat := 1
  cur : Option Nat := none
  gone : Bool := false
  deferSw : Nat := 0
  finEn : Nat := 0
  drops : Nat := 0
  timers : Nat := 0
  sc : Nat := 0
  conns : Nat → Conn := fun _ => {}
  n : Nat := 0
  log : List Ev := []

/-- A line of the log. -/
def Na.say (s : Na) (e : Ev) : Na := { s with log := s.log ++ [e] }

/-- Connection `i` becomes `c`. -/
def Na.setc (s : Na) (i : Nat) (c : Conn) : Na := { s with conns := fun j => if j = i then c else s.conns j }

/-- `conaccna_deref_and_unlock`, gensio_conacc.c:365-376. -/
def deref (s : Na) : Option Na :=
  if s.ref = 0 then none
  else if s.ref = 1 then some { s with ref := 0, gone := true }
  else some { s with ref := s.ref - 1 }

/-- `conaccna_deferred_op`, gensio_conacc.c:456-464. -/
def deferOp (s : Na) : Na := if s.defer then s else { s with defer := true, ref := s.ref + 1 }

/-- `start_retry`, gensio_conacc.c:643-652. -/
def startRetry (s : Na) : Option Na :=
  if s.tm ≠ .idle then none else some { s with st := .waiting, tm := .running, ref := s.ref + 1 }

/-- What is done when a child can not be opened, gensio_conacc.c:782-789 and :706-712. -/
def failed (s : Na) : Option Na :=
  if s.retry then startRetry s else some (deferOp { s with st := .dead, conErr := true })

/-- `conacc_start`, gensio_conacc.c:741-790. -/
def start (s : Na) (ok : Bool) : Option Na :=
  if s.cur.isSome then some { s with st := .ready }
  else if ok then
    some { (s.setc s.n { st := .inOpen, ch := .opening, opn := true }) with st := .opening, cur := some s.n, n := s.n + 1, ref := s.ref + 1 }
  else failed s

/-- The second part of `conaccna_finish_shutdown`, gensio_conacc.c:399-406, and the end of its callers. -/
def finish2 (s : Na) : Option Na :=
  if s.shDone then
    (if s.accGone then none else some { s with st := .shutdown, shDone := false, rep := true, drops := s.drops + 1 })
  else deref { s with st := .shutdown }

/-- `conaccna_finish_shutdown`, gensio_conacc.c:393-407, and the end of its callers. -/
def finishShut (s : Na) : Option Na :=
  match s.enDone with
  | some id => if s.accGone then none else some { (s.say (.enCb id)) with enDone := none, finEn := s.finEn + 1 }
  | none => finish2 s

/-- The switch of `conaccna_do_deferred`, gensio_conacc.c:419-453. -/
def deferSwitch (s : Na) (ok : Bool) : Option Na :=
  match s.st with
  | .inShutdown => finishShut s
  | .inDisable => deref { s with st := .disabled }
  | .inDisableRestart => (start s ok).bind deref
  | .dead =>
    if s.conErr then (if s.accGone then none else some { s with conErr := false, drops := s.drops + 1 }) else deref s
  | _ => deref s

/-- `conaccna_do_deferred`, gensio_conacc.c:409-454, up to its first callback. -/
def doDeferred (s : Na) (ok : Bool) : Option Na :=
  if s.gone then none else
  let s := { s with defer := false }
  match s.enDone with
  | some id => if s.accGone then none else some { (s.say (.enCb id)) with enDone := none, deferSw := s.deferSw + 1 }
  | none => deferSwitch s ok

/-- `conaccn_finish_close`, gensio_conacc.c:466-496. -/
def finishClose (s : Na) (i : Nat) (ok : Bool) : Option Na :=
  let s := s.setc i { s.conns i with st := .closed }
  if !(s.conns i).na then some s
  else if s.gone then none
  else
    let s := { s with cur := none }
    (if s.st = .ready then (if s.retry then startRetry s else start s ok) else some s).bind deref

/-- `gensio_close` of a child: is it accepted? -/
def closeOk (c : Conn) : Bool := c.ch = .opening ∨ c.ch = .opened

/-- `i_conaccn_close`, gensio_conacc.c:517-537.  `in_close` is never set. -/
def iClose (s : Na) (i : Nat) (id : Option Nat) (ok : Bool) : Option Na :=
  let c := { s.conns i with st := .inClose }
  if closeOk c then some (s.setc i { c with ch := .closing, shut := false, ref := c.ref + 1, cdone := id })
  else finishClose (s.setc i c) i ok

/-- `conaccn_deref_and_unlock`, gensio_conacc.c:309-320, with `conaccn_finish_free`, :295-307. -/
def cderef (s : Na) (i : Nat) : Option Na :=
  let c := s.conns i
  if c.ref = 0 then none
  else if c.ref = 1 then some (s.setc i { c with ref := 0, gone := true })
  else some (s.setc i { c with ref := c.ref - 1 })

/-- `conaccn_free`, gensio_conacc.c:552-573. -/
def connFree (s : Na) (i : Nat) (ok : Bool) : Option Na :=
  if (s.conns i).gone then none else
  (if (s.conns i).st = .inOpen ∨ (s.conns i).st = .opened then iClose s i none ok else some s).bind fun s => cderef s i

/-- `conaccn_disable`, gensio_conacc.c:575-596. -/
def connDisable (s : Na) (i : Nat) (ok : Bool) : Option Na :=
  let c := s.conns i
  if c.gone then none else
  let s := s.setc i { c with st := .closed, ch := .closed, na := false }
  if !c.na then some s
  else if s.gone then none
  else
    let s := { s with cur := none }
    (if s.retry then startRetry s else start s ok).bind fun s => start s ok

/-- `conaccn_open_done`, gensio_conacc.c:660-671. -/
def openDone1 (s : Na) (i : Nat) (err : Bool) : Option Na :=
  if s.gone then none
  else if s.st = .openShutdown ∨ s.st = .openDisable then some (s.setc i { s.conns i with pc := .idle })
  else some (s.setc i { s.conns i with pc := if err then .od3 true else .od2 })

/-- `conaccn_open_done`, gensio_conacc.c:676-689, with `base_gensio_accepter_new_child_start` and `..._end`, acc.c:444-468. -/
def openDone2 (s : Na) (i : Nat) (mem : Bool) : Option Na :=
  if !mem then some (s.setc i { s.conns i with pc := .od3 true })
  else if s.accGone then none
  else if s.base ≠ .opened then some (s.setc i { s.conns i with io := true, pc := .od3 true })
  else some (s.setc i { s.conns i with io := true, st := .opened, pc := .od3 false })

/-- `conaccn_open_done`, gensio_conacc.c:691-738, but for the report of a connection that is good.  In the state
`CONACCNA_OPEN_DISABLE` without an error the gensio is freed with the lock held, and the close of its child, which is closing,
fails, so that `conaccn_finish_close` waits for the lock. -/
def openDone3 (s : Na) (i : Nat) (err : Bool) : Option Na :=
  if s.gone then none else
  match s.st with
  | .opening =>
    if err then
      (failed s).bind fun s => deref { (s.setc i { s.conns i with pc := .idle, gone := true }) with cur := none }
    else some { (s.setc i { s.conns i with pc := .od4 }) with st := .ready }
  | .openDisable =>
    if err then deref { (s.setc i { s.conns i with pc := .idle, gone := true }) with cur := none, st := .disabled }
    else none
  | _ => none

/-- `base_gensio_server_open_done`, acc.c:470-494, called at gensio_conacc.c:728. -/
def openDone4 (s : Na) (i : Nat) (ok : Bool) : Option Na :=
  let s := s.setc i { s.conns i with pc := .idle }
  if s.base = .opened then some ((s.setc i { s.conns i with user := true }).say (.newConn i))
  else connFree s i ok

/-- `conaccna_retry_timeout`, gensio_conacc.c:792-822. -/
def timeout (s : Na) (ok : Bool) : Option Na :=
  if s.gone then none else
  match s.st with
  | .inShutdown => finishShut s
  | .inDisableRestart | .waiting => (start s ok).bind deref
  | .inDisable => deref { s with st := .disabled }
  | _ => none

/-- `conaccna_call_enabled` and then the end of the caller, gensio_conacc.c:379-391. -/
def callEnabled (s : Na) : Option Na :=
  match s.enDone with
  | some id => if s.accGone then none else some { (s.say (.enCb id)) with enDone := none, drops := s.drops + 1 }
  | none => deref s

/-- `retry_timer_done`, gensio_conacc.c:824-859. -/
def timerDone (s : Na) (ok : Bool) : Option Na :=
  if s.gone then none else
  match s.st with
  | .inShutdown => finishShut s
  | .inDisable => callEnabled { s with st := .disabled }
  | .inDisableRestart => (start s ok).bind deref
  | _ => none

/-- `conaccn_shutdown_close_done`, gensio_conacc.c:888-911, after the connection was freed. -/
def shutClose (s : Na) : Option Na :=
  if s.gone then none else
  let s := { s with cur := none }
  match s.st with
  | .openDisable => callEnabled { s with st := .disabled }
  | .openShutdown => finishShut s
  | _ => none

/-- `conaccna_startup`, gensio_conacc.c:861-886, from `basena_startup`, acc.c:237-256. -/
def startup (s : Na) (ok : Bool) : Option Na :=
  if s.gone then none
  else if s.base ≠ .closed then some s
  else if s.st ≠ .shutdown then some s
  else if !s.enabled then some { s with conErr := false, st := .disabled, base := .opened }
  else
    (start { s with conErr := false } ok).map fun s =>
      if s.st = .dead then { s with st := .shutdown, conErr := false } else { s with base := .opened }

/-- The child of the connection that is being opened is closed, gensio_conacc.c:930-937 and :1022-1033: the result is whether
the close was accepted. -/
def closeCur (s : Na) : Option (Na × Bool) :=
  match s.cur with
  | none => none
  | some i =>
    let c := s.conns i
    if c.gone then none
    else if closeOk c then some (s.setc i { c with ch := .closing, shut := true }, true)
    else some (s, false)

/-- `conaccna_shutdown`, gensio_conacc.c:913-988; whether it succeeds. -/
def shutdown (s : Na) : Option (Na × Bool) :=
  let fin := fun s : Na => some ({ s with shDone := true }, true)
  if s.gone then none else
  match s.st with
  | .shutdown | .openShutdown | .inShutdown => some (s, false)
  | .opening =>
    (closeCur s).bind fun r =>
      if r.2 then fin { r.1 with st := .openShutdown } else fin (deferOp { r.1 with st := .inShutdown })
  | .waiting =>
    match s.tm with
    | .running => fin { s with st := .inShutdown, tm := .stopping }
    | .idle => fin (deferOp { s with st := .inShutdown })
    | .stopping => none
  | .openDisable => fin { s with st := .openShutdown }
  | .inDisable => fin { s with st := .inShutdown }
  | .ready | .inDisableRestart | .disabled | .dead => fin (deferOp { s with st := .inShutdown })

/-- The end of `conaccna_set_accept_callback_enable`, gensio_conacc.c:1076-1081. -/
def enEnd (s : Na) (en : Bool) (done : Option Nat) (deferred : Bool) : Option Na :=
  let s := { (match done with | some id => s.say (.enReq id) | none => s) with enabled := en, enDone := done }
  some (if deferred then deferOp s else s)

/-- `conaccna_set_accept_callback_enable`, gensio_conacc.c:990-1087. -/
def enable (s : Na) (en : Bool) (done : Option Nat) (ok : Bool) : Option Na :=
  if s.gone then none
  else if s.enDone.isSome then some s
  else
    match s.st with
    | .shutdown | .dead | .openShutdown | .inShutdown => enEnd s en done true
    | .disabled =>
      if en then
        (start s ok).bind fun s =>
          if s.st = .dead then some { s with st := .shutdown, conErr := false } else enEnd s en done true
      else enEnd s en done true
    | .opening =>
      if en then enEnd s en done true
      else (closeCur s).bind fun r =>
        if r.2 then enEnd { r.1 with st := .openDisable } en done false else enEnd { r.1 with st := .inDisable } en done true
    | .ready => enEnd { s with st := .inDisable } en done true
    | .waiting =>
      if en then enEnd s en done true
      else match s.tm with
        | .running => enEnd { s with st := .inDisable, tm := .stopping } en done false
        | .idle => enEnd { s with st := .inDisable } en done true
        | .stopping => none
    | .openDisable => enEnd (if en then { s with st := .opening } else s) en done true
    | .inDisable => enEnd (if en then { s with st := .inDisableRestart } else s) en done true
    | .inDisableRestart => enEnd (if en then s else { s with st := .inDisable }) en done true

/-- `basena_free`, acc.c:342-374. -/
def accFree (s : Na) : Option Na :=
  let s := { s with freed := true }
  if s.base = .opened then
    (shutdown s).map fun r => { r.1 with base := if r.2 then .inShut else .closed }
  else some s

/-- `conaccna_control`, gensio_conacc.c:1106-1135. -/
def control (s : Na) : Option Na :=
  if s.gone then none
  else match s.cur with
    | some i => if (s.conns i).gone then none else some s
    | none => some s

/-- What the user, the child gensios, the timer and the threads do.  `ok`: whether a child can be opened, if one is. -/
inductive Op
  | startup (ok : Bool) | shutdown | enable (en : Bool) (done : Option Nat) (ok : Bool) | free | control
  | closeIo (i id : Nat) (ok : Bool) | freeIo (i : Nat) (ok : Bool) | disableIo (i : Nat) (ok : Bool)
  | opened (i : Nat) (err : Bool) | openDone (i : Nat) (ok : Bool) | closed (i : Nat) | closeEnd (i : Nat) (ok : Bool)
  | deferred (ok : Bool) | deferredSw (ok : Bool) | finEn | drop | timer | timeout (ok : Bool) | timerDone (ok : Bool) | shutClose
  | report | release
deriving DecidableEq, Repr

/-- Does a connection hold a reference to the upper half, acc.c:463, :493? -/
def holdsBase (c : Conn) : Bool := c.pc = .od3 false ∨ c.pc = .od4

/-- One step; what can not happen changes nothing. -/
def step (s : Na) : Op → Option Na
  | .startup ok => if s.freed then some s else startup s ok
  | .shutdown =>
    if s.freed ∨ s.base ≠ .opened then some s
    else (shutdown s).map fun r => if r.2 then { (r.1.say .shutReq) with base := .inShut } else r.1
  | .enable en done ok => if s.freed ∨ s.base ≠ .opened then some s else enable s en done ok
  | .free => if s.freed then some s else accFree s
  | .control => if s.freed then some s else control s
  | .closeIo i id ok =>
    if !(s.conns i).user then some s else if (s.conns i).gone then none else iClose s i (some id) ok
  | .freeIo i ok =>
    if !(s.conns i).user then some s else connFree (s.setc i { s.conns i with user := false }) i ok
  | .disableIo i ok => if !(s.conns i).user then some s else connDisable s i ok
  | .opened i err =>
    let c := s.conns i
    if !c.opn ∨ c.gone then some s
    else if c.ch = .closing then some (s.setc i { c with opn := false, pc := .od1 true })
    else some (s.setc i { c with opn := false, pc := .od1 err, ch := if err then .closed else .opened })
  | .openDone i ok =>
    let c := s.conns i
    match c.pc with
    | .idle => some s
    | .od1 err => if c.gone then none else openDone1 s i err
    | .od2 => if c.gone then none else openDone2 s i ok
    | .od3 err => if c.gone then none else openDone3 s i err
    | .od4 => if c.gone then none else openDone4 s i ok
  | .closed i =>
    let c := s.conns i
    if c.gone ∨ c.ch ≠ .closing ∨ c.opn ∨ c.pc ≠ .idle then some s
    else if c.shut then some { (s.setc i { c with ch := .closed, gone := true }) with sc := s.sc + 1 }
    else
      let s := s.setc i { c with ch := .closed, cdone := none, mid := true }
      some (match c.cdone with | some id => s.say (.closed id) | none => s)
  | .closeEnd i ok =>
    let c := s.conns i
    if !c.mid then some s
    else if c.gone then none
    else (finishClose (s.setc i { c with mid := false }) i ok).bind fun s => cderef s i
  | .deferred ok => if s.defer then doDeferred s ok else some s
  | .deferredSw ok =>
    if s.deferSw = 0 then some s else if s.gone then none else deferSwitch { s with deferSw := s.deferSw - 1 } ok
  | .finEn => if s.finEn = 0 then some s else if s.gone then none else finish2 { s with finEn := s.finEn - 1 }
  | .drop => if s.drops = 0 then some s else if s.gone then none else deref { s with drops := s.drops - 1 }
  | .timer => if s.tm = .running then some { s with tm := .idle, timers := s.timers + 1 } else some s
  | .timeout ok => if s.timers = 0 then some s else timeout { s with timers := s.timers - 1 } ok
  | .timerDone ok => if s.tm = .stopping then timerDone { s with tm := .idle } ok else some s
  | .shutClose => if s.sc = 0 then some s else shutClose { s with sc := s.sc - 1 }
  | .report =>
    if !s.rep then some s
    else some (if s.freed then { s with rep := false, base := .closed } else { (s.say .shutCb) with rep := false, base := .closed })
  | .release =>
    if !s.freed ∨ s.accGone ∨ s.base ≠ .closed ∨ s.enDone.isSome ∨ (List.range s.n).any (fun i => holdsBase (s.conns i)) then some s
    else if s.gone then none
    else deref { s with accGone := true }

def run (s : Na) : List Op → Option Na
  | [] => some s
  | o :: os => (step s o).bind fun s => run s os

/-- A new accepter, `conacc_gensio_accepter_alloc`, gensio_conacc.c:1170-1229. -/
def init (retry : Bool) : Na := { retry }

end Gensio.Conacc
