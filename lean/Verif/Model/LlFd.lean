/-!
# The lowest layer of the gensios on a descriptor, `lib/ll_fd.c`

One `struct fd_ll` with its timer, its runner, its descriptors, and any number of threads that run its handlers.  The state is
protected by `fdll->lock`; a step is what a thread does from taking the lock to giving it up.  Without the lock are: the call
of a handler before it has the lock, reading from the descriptor, and the callbacks of the user.  The user (`gensio_base.c`) may
call the functions of the layer at any time and from any thread, so calls from inside a callback are steps while a thread is
in the callback.

The selector is what it gives (see `Verif.Model.SelFd`, `Verif.Model.Selector`): handlers of a descriptor are called when they
are enabled and before it is cleared, the cleared handler is called once after the others have returned, each accepted run of
the runner calls it once, a timer fires once for each start and a stop is refused when it has fired.

Simplifications:
* Error numbers are natural numbers, 0 is no error.  Times are left out.
* The functions `ops->...` are given by their results, which come with the step (`Arg`).  `check_close` closes the descriptor
  itself or leaves it to `fd_finish_cleared`; both close it in the same step here.  `read_ready` (pty, serialdev, sctp) calls
  `gensio_fd_ll_handle_incoming`, as the default does.  `except_ready` (net) either has got out of band data and calls
  `gensio_fd_ll_handle_incoming` for it, or refuses.
* The buffer `read_data`, `read_data_pos`, `read_data_len` is the list of the bytes that are left, `read_data[pos .. pos + len)`.
* `auxdata`, `fd_write`, `fd_control`, `fd_acontrol` and `fd_disable` (used after a fork) are left out.
* Allocation in `fd_gensio_ll_alloc` succeeds.
* The result `none` is a failed assertion, or a use of released memory, of a closed descriptor or of a NULL pointer.
-/

namespace Gensio.LlFd

/-- `enum fd_state`, :17-84. -/
inductive FdSt
  | closed | inOpen | inOpenRetry | opened | inClose | openErrWait | errWait
  deriving DecidableEq, Repr

/-- `timer_state`, :124 and :596-608. -/
inductive TSt
  | stopped | running | stopping | restart
  deriving DecidableEq, Repr

/-- What a thread does after `fd_handle_write_ready` or `fd_finish_open`. -/
inductive Ret
  /-- `fd_deref_and_unlock`: :741, :758, :847, :884. -/
  | fin
  /-- `fd_unlock`: :776. -/
  | plain
  /-- `fd_deferred_op` after :433. -/
  | runB
  /-- `fd_deferred_op` after :439. -/
  | runC
  deriving DecidableEq, Repr

/-- Where a thread is. -/
inductive Pc
  /-- At the beginning of `fd_handle_incoming`. -/
  | rd0
  /-- In `doread`, :513. -/
  | rdIO
  /-- In the read callback called by `fd_handle_incoming` with the error, :361-369. -/
  | rdCb (err : Nat)
  /-- At the beginning of `fd_write_ready`. -/
  | wr0
  /-- In the write callback, :713-717. -/
  | wrCb (i : Nat) (k : Ret)
  /-- At the beginning of `fd_except_ready`. -/
  | ex0
  /-- In `except_ready`, :761. -/
  | exOp
  /-- At the beginning of `fd_cleared`. -/
  | cl0
  /-- At the beginning of `fd_deferred_op`. -/
  | run0
  /-- In the read callback called by `fd_deferred_op`. -/
  | dfRd
  /-- At the beginning of `fd_timeout`. -/
  | tm0
  /-- In the open callback with the error, :397. -/
  | opCb (err : Nat) (k : Ret)
  /-- In the close callback, :418. -/
  | clCb
  deriving DecidableEq, Repr

/-- A thread; `h` is the descriptor when it is in a read, write or except handler of it. -/
structure Th where
  pc : Pc
  h : Option Nat := none
  deriving DecidableEq, Repr

/-- What the selector knows of the handlers of a descriptor. -/
inductive Reg
  | none_ | active | clearing | cleared
  deriving DecidableEq, Repr

/-- A descriptor, `struct gensio_iod`. -/
structure Iod where
  reg : Reg := .none_
  rd : Bool := false
  wr : Bool := false
  ex : Bool := false
  isClosed : Bool := false
  deriving DecidableEq, Repr

/-- History. -/
inductive Ev
  /-- `fd_open` returned `GE_INPROGRESS` for open number `n`. -/
  | openAcc (n : Nat)
  /-- `fd_open` returned 0 for open number `n`. -/
  | openNow (n : Nat)
  /-- The open callback of open number `n` is called. -/
  | openDone (n : Nat) (err : Nat)
  /-- `fd_close` returned 0 for close number `n`. -/
  | closeAcc (n : Nat)
  /-- The close callback of close number `n` is called. -/
  | closeDone (n : Nat)
  /-- The read callback is called with the error and the data. -/
  | read (err : Nat) (l : List UInt8)
  /-- The write callback is called. -/
  | write
  deriving DecidableEq, Repr

/-- What is fixed for an `fd_ll`: `write_only`, `read_only`, whether there are `retry_open` and `except_ready`. -/
structure Cfg where
  wrOnly : Bool := false
  rdOnly : Bool := false
  retry : Bool := false
  exOp : Bool := false
  deriving DecidableEq, Repr

/-- `struct fd_ll`, :99-161, with its descriptors, timer, runner and threads. -/
structure St where
  st : FdSt := .closed
  ref : Nat := 1
  iod : Option Nat := none
  rdEn : Bool := false
  wrEn : Bool := false
  tm : TSt := .stopped
  /-- `open_done` with its data, as the number of the open. -/
  openDone : Option Nat := none
  openErr : Nat := 0
  closeDone : Option Nat := none
  closeReq : Bool := false
  freed : Bool := false
  buf : List UInt8 := []
  inRd : Bool := false
  inWr : Bool := false
  defPend : Bool := false
  dOpen : Bool := false
  dRead : Bool := false
  dClose : Bool := false
  dExc : Bool := false
  /-- `fd_finish_free` was called. -/
  dead : Bool := false
  /-- The descriptors; numbers from `nIod` are not used yet. -/
  iods : Nat → Iod := fun _ => {}
  nIod : Nat := 0
  /-- The runner is queued. -/
  runQ : Bool := false
  /-- The timer is running. -/
  tmRun : Bool := false
  th : List Th := []
  /-- Numbers of opens and closes. -/
  nOpen : Nat := 0
  nClose : Nat := 0
  /-- What was read from the descriptor since the last open, and what the read callback has taken of it. -/
  recvd : List UInt8 := []
  taken : List UInt8 := []
  ev : List Ev := []
  /-- Which of `sub_open` and `check_close` may need time; it does not change, and only `fair` looks at it. -/
  slow : Bool := true

/-- `GE_NOMEM`, `GE_LOCALCLOSED`: `include/gensio/gensio_err.h` :19, :53. -/
def geNomem : Nat := 1
@[inherit_doc geNomem] def geLocalClosed : Nat := 35

/-- Result of `sub_open` and `retry_open`. -/
inductive OpRes
  | done | prog | retry | err (e : Nat)
  deriving DecidableEq, Repr

/-- Result of `check_open`. -/
inductive CkRes
  | retry | res (e : Nat)
  deriving DecidableEq, Repr

/-- Results of the functions that a step calls. -/
structure Arg where
  /-- `check_open`. -/
  co : CkRes := .res 0
  /-- `check_close` returns `GE_INPROGRESS`. -/
  cc : Bool := false
  /-- `retry_open`. -/
  ro : OpRes := .prog
  /-- `set_fd_handlers` succeeds. -/
  hOK : Bool := true
  /-- `doread`: error and data. -/
  err : Nat := 0
  data : List UInt8 := []
  /-- Result of the read callback. -/
  cnt : Nat := 0
  /-- `except_ready` has got out of band data. -/
  oob : Bool := false
  deriving DecidableEq, Repr

def St.push (s : St) (pc : Pc) (h : Option Nat) : St := { s with th := ⟨pc, h⟩ :: s.th }
def St.setIod (s : St) (i : Nat) (x : Iod) : St := { s with iods := fun j => if j = i then x else s.iods j }
def St.log (s : St) (e : Ev) : St := { s with ev := e :: s.ev }

/-- `o->set_read_handler`, `o->set_write_handler`, `o->set_except_handler` (`os_unix.c` :650-744): without a registration
nothing is done. -/
def setRd (s : St) (i : Option Nat) (b : Bool) : Option St :=
  match i with
  | none => none
  | some i =>
    if (s.iods i).isClosed then none
    else if (s.iods i).reg = .active then some (s.setIod i { s.iods i with rd := b }) else some s

@[inherit_doc setRd] def setWr (s : St) (i : Option Nat) (b : Bool) : Option St :=
  match i with
  | none => none
  | some i =>
    if (s.iods i).isClosed then none
    else if (s.iods i).reg = .active then some (s.setIod i { s.iods i with wr := b }) else some s

@[inherit_doc setRd] def setEx (s : St) (i : Option Nat) (b : Bool) : Option St :=
  match i with
  | none => none
  | some i =>
    if (s.iods i).isClosed then none
    else if (s.iods i).reg = .active then some (s.setIod i { s.iods i with ex := b }) else some s

/-- `o->clear_fd_handlers(fdll->iod)`, `os_unix.c` :584-603. -/
def clear (s : St) : Option St :=
  match s.iod with
  | none => none
  | some i =>
    if (s.iods i).isClosed then none
    else if (s.iods i).reg = .active then some (s.setIod i { reg := .clearing }) else some s

/-- `o->close(&fdll->iod)`, `os_unix.c` :1340-1378, with its assertion that no handlers are set. -/
def closeIod (s : St) : Option St :=
  match s.iod with
  | none => none
  | some i =>
    if (s.iods i).isClosed || (s.iods i).reg = .active || (s.iods i).reg = .clearing then none
    else some { s.setIod i { s.iods i with isClosed := true } with iod := none }

/-- A new descriptor in `fdll->iod`. -/
def newIod (s : St) : St := { s.setIod s.nIod {} with iod := some s.nIod, nIod := s.nIod + 1 }

/-- `fd_setup_handlers`, :939-947. -/
def setupHandlers (s : St) (ok : Bool) : Option (St × Bool) :=
  match s.iod with
  | none => none
  | some i => if ok then some (s.setIod i { s.iods i with reg := .active }, true) else some (s, false)

/-- `fd_ref`, :280-285. -/
def ref (s : St) : Option St := if s.ref > 0 then some { s with ref := s.ref + 1 } else none

/-- `fd_deref`, :287-292. -/
def deref (s : St) : Option St := if s.ref > 1 then some { s with ref := s.ref - 1 } else none

/-- `fd_deref_and_unlock`, :308-318, with `fd_finish_free`, :168-183. -/
def derefUnlock (s : St) : Option St :=
  if s.ref > 0 then some { s with ref := s.ref - 1, dead := s.dead || s.ref == 1 } else none

/-- `fd_lock` of a released structure. -/
def lock (s : St) : Option St := if s.dead then none else some s

/-- `fd_sched_deferred_op`, :467-476.  The result of `o->run` is not looked at. -/
def sched (s : St) : Option St :=
  if s.defPend then some s
  else do
    let s ← ref s
    some { s with defPend := true, runQ := true }

/-- `o->start_timer` with the assertion that it succeeds, :618-620. -/
def timerOn (s : St) : Option St := if s.tmRun then none else some { s with tmRun := true, tm := .running }

/-- `fd_start_timer`, :609-642. -/
def startTimer (s : St) : Option St :=
  match s.tm with
  | .stopped => (ref s).bind timerOn
  | .running => if s.tmRun then timerOn { s with tmRun := false } else some { s with tm := .restart }
  | .stopping => some { s with tm := .restart }
  | .restart => some s

/-- `fd_stop_timer`, :644-670. -/
def stopTimer (s : St) : Option St :=
  match s.tm with
  | .stopped => some s
  | .running => if s.tmRun then (deref { s with tmRun := false }).map (fun s => { s with tm := .stopped })
      else some { s with tm := .stopping }
  | .stopping => some s
  | .restart => some { s with tm := .stopping }

/-- `fd_finish_open`, :384-398. -/
def finishOpen (s : St) (err : Nat) (k : Ret) (h : Option Nat) : Option St :=
  match s.openDone with
  | none => none
  | some n =>
    let s := { s with st := if err ≠ 0 then .closed else .opened, openDone := none }
    some ((s.log (.openDone n err)).push (.opCb err k) h)

/-- `fd_deferred_op` from :457. -/
def runE (s : St) : Option St :=
  let s := { s with defPend := false }
  (if s.st = .opened then do
    let s ← setRd s s.iod s.rdEn
    let s ← setEx s s.iod (s.rdEn || s.wrEn)
    setWr s s.iod s.wrEn
  else some s).bind derefUnlock

/-- `fd_deferred_op` from :452, with `fd_finish_close`, :410-422, up to the callback. -/
def runD (s : St) : Option St :=
  if s.dClose then
    let s := { s with dClose := false, st := .closed }
    match s.closeDone with
    | some n => some (({ s with closeDone := none }.log (.closeDone n)).push .clCb none)
    | none => (deref s).bind runE
  else runE s

/-- `fd_deferred_op` from :441. -/
def runC (s : St) : Option St :=
  if s.dRead then
    let s := { s with dRead := false }
    if !s.inRd && s.rdEn && !s.buf.isEmpty then
      some (({ s with inRd := true }.log (.read 0 s.buf)).push .dfRd none)
    else runD s
  else runD s

/-- `fd_handle_write_ready`, :672-732, the case `FD_IN_OPEN` when `check_open`
failed: :687-703. -/
def openFailed (c : Cfg) (s : St) (e : Nat) : Option St :=
  if e ≠ geNomem && c.retry then do
    let s ← stopTimer { s with st := .inOpenRetry }
    clear s
  else do
    let s ← stopTimer { s with openErr := e, st := .openErrWait }
    clear s

/-- Turning the write handler of `iod` off, :685-686, :725-726, :729-730. -/
def wrOff (s : St) (i : Option Nat) : Option St := do
  let s ← setWr s i false
  setEx s i s.rdEn

/-- What `fd_handle_write_ready` leads to: it returned, or a callback is called. -/
inductive WRes
  | ret (s : St)
  | cb (s : St)

/-- `fd_handle_write_ready`, :672-732, up to the callbacks. -/
def handleWrite (c : Cfg) (s : St) (i : Option Nat) (co : CkRes) (k : Ret) (h : Option Nat) : Option WRes :=
  if s.st = .inOpen then
    match co with
    | .retry => (startTimer s).map .ret
    | .res e => do
      let s ← wrOff s i
      if e ≠ 0 then (openFailed c s e).map .ret else (finishOpen s 0 k h).map .cb
  else if s.st = .opened && s.wrEn && !s.inWr then
    match i with
    | none => none
    | some i => some (.cb (({ s with inWr := true }.log .write).push (.wrCb i k) h))
  else (wrOff s i).map .ret

/-- `fd_deferred_op` from :435. -/
def runB (c : Cfg) (s : St) (a : Arg) : Option St :=
  if s.dExc && s.wrEn then
    let s := { s with dExc := false }
    match s.iod with
    | none => runC s
    | some i =>
      match handleWrite c s (some i) a.co .runC none with
      | none => none
      | some (.ret s) => runC s
      | some (.cb s) => some s
  else runC s

/-- What follows `fd_handle_write_ready` or `fd_finish_open`. -/
def cont (c : Cfg) (s : St) (a : Arg) : Ret → Option St
  | .fin => derefUnlock s
  | .plain => some s
  | .runB => runB c s a
  | .runC => runC s

/-- `fd_handle_write_ready` and what follows it when it does not call a callback. -/
def writeReady (c : Cfg) (s : St) (i : Option Nat) (a : Arg) (k : Ret) (h : Option Nat) : Option St :=
  match handleWrite c s i a.co k h with
  | none => none
  | some (.ret s) => cont c s a k
  | some (.cb s) => some s

/-- `fd_deferred_op`, :424-433. -/
def run0 (c : Cfg) (s : St) (a : Arg) : Option St := do
  let s ← lock s
  if s.dOpen then finishOpen { s with dOpen := false } s.openErr .runB none else runB c s a

/-- `fd_finish_open`, :400-406. -/
def armAll (s : St) : Option St :=
  if s.st = .opened then do
    let s ← (if s.rdEn then setRd s s.iod true else some s)
    let s ← (if s.wrEn then setWr s s.iod true else some s)
    setEx s s.iod (s.rdEn || s.wrEn)
  else some s

/-- `fd_finish_open` after the callback, :398-407. -/
def openRet (c : Cfg) (s : St) (a : Arg) (k : Ret) : Option St := do
  let s ← lock s
  let s ← armAll s
  cont c s a k

/-- `fd_finish_close` after the callback, :419-421. -/
def closeRet (s : St) : Option St := do
  let s ← lock s
  let s ← deref s
  runE s

/-- `fd_handle_write_ready`, :720-727. -/
def wrAgain (s : St) (i : Nat) : Option St :=
  if (s.st = .opened || s.st = .inClose) && s.wrEn then do
    let s ← setWr s s.iod true
    setEx s s.iod true
  else wrOff s (some i)

/-- `fd_handle_write_ready` after the write callback, :718-727. -/
def writeRet (c : Cfg) (s : St) (i : Nat) (a : Arg) (k : Ret) : Option St := do
  let s ← lock s
  let s ← wrAgain { s with inWr := false } i
  cont c s a k

/-- `fd_handle_incoming` from `out_disable`, :553-557. -/
def outDisable (s : St) : Option St := do
  let s ← setRd s s.iod false
  let s ← setEx s s.iod s.wrEn
  derefUnlock s

/-- `fd_handle_incoming`, :524-543: what an error does to the state. -/
def readErr (s : St) : Option St :=
  match s.st with
  | .opened => do
    let s ← setWr s s.iod false
    let s ← setEx s s.iod false
    some { s with st := .errWait }
  | .errWait => some s
  | .inClose => some s
  | _ => none

/-- `fd_handle_incoming` from :524. -/
def readEnd (s : St) (err : Nat) : Option St := do
  let s ← (if err ≠ 0 then readErr s else some s)
  let s := { s with inRd := false }
  if s.st = .opened && s.rdEn then do
    let s ← setRd s s.iod true
    let s ← setEx s s.iod true
    derefUnlock s
  else outDisable s

/-- `fd_deliver_read_data`, :353-369, called by `fd_handle_incoming`. -/
def deliver (s : St) (err : Nat) (h : Option Nat) : Option St :=
  if err ≠ 0 || !s.buf.isEmpty then some ((s.log (.read err s.buf)).push (.rdCb err) h) else readEnd s err

/-- `fd_handle_incoming`, :505-512. -/
def incoming (s : St) (h : Option Nat) : Option St := do
  let s ← lock s
  let s ← ref s
  if s.inRd || s.st = .errWait || s.st = .openErrWait then outDisable s
  else
    let s := { s with inRd := true }
    if s.buf.isEmpty then some (s.push .rdIO h) else deliver s 0 h

/-- `fd_handle_incoming` after `doread`, :515-522. -/
def gotData (s : St) (a : Arg) (h : Option Nat) : Option St := do
  let s ← lock s
  if a.err ≠ 0 then deliver s a.err h
  else deliver { s with buf := a.data, recvd := s.recvd ++ a.data } 0 h

/-- `fd_deliver_read_data` after the callback, :370-380: the bytes taken, and whether to call it again. -/
def took (s : St) (err cnt : Nat) : St × Bool :=
  if err ≠ 0 || cnt ≥ s.buf.length then ({ s with buf := [], taken := s.taken ++ s.buf }, false)
  else ({ s with buf := s.buf.drop cnt, taken := s.taken ++ s.buf.take cnt }, s.rdEn)

/-- The read callback returned to `fd_handle_incoming`. -/
def readRet (s : St) (err cnt : Nat) (h : Option Nat) : Option St := do
  let s ← lock s
  let (s, again) := took s err cnt
  if again then some ((s.log (.read err s.buf)).push (.rdCb err) h) else readEnd s err

/-- The read callback returned to `fd_deferred_op`, :447-450. -/
def dfRet (s : St) (cnt : Nat) : Option St := do
  let s ← lock s
  let (s, again) := took s 0 cnt
  if again then some ((s.log (.read 0 s.buf)).push .dfRd none) else runC { s with inRd := false }

/-- `fd_except_ready` from `handle_except_internal`, :767-777. -/
def exInternal (c : Cfg) (s : St) (a : Arg) (i : Nat) (h : Option Nat) : Option St :=
  if s.rdEn then some (s.push .rd0 h)
  else if s.wrEn then writeReady c s (some i) a .plain h
  else some { s with dExc := true }

/-- `fd_except_ready`, :744-779. -/
def except (c : Cfg) (s : St) (a : Arg) (i : Nat) (h : Option Nat) : Option St := do
  let s ← lock s
  if s.st = .inOpen || s.st = .inOpenRetry then do
    let s ← ref s
    writeReady c s (some i) a .fin h
  else if c.exOp then some (s.push .exOp h)
  else exInternal c s a i h

/-- `fd_except_ready` after `except_ready`, :761-765. -/
def exRet (c : Cfg) (s : St) (a : Arg) (i : Nat) (h : Option Nat) : Option St :=
  if a.oob then some (s.push .rd0 h)
  else do
    let s ← lock s
    exInternal c s a i h

/-- `fd_finish_cleared`, :781-790, without closing the descriptor. -/
def finishCleared (s : St) : Option St :=
  sched { s with dOpen := s.dOpen || s.st = .openErrWait, dClose := true }

/-- `fd_check_close`, :801-818. -/
def checkClose (s : St) (inProg : Bool) : Option St :=
  if inProg then startTimer s
  else do
    let s ← (if s.iod.isSome then closeIod s else some s)
    finishCleared s

/-- `fd_cleared`, :859-873: closing the descriptor and `retry_open`.  The result is the error. -/
def retryOpen (s : St) (a : Arg) : Option (St × Nat) := do
  let s ← closeIod s
  match a.ro with
  | .err e => some (s, e)
  | .done => some (newIod s, 0)
  | r => do
    let (s, ok) ← setupHandlers (newIod s) a.hOK
    if ok then do
      let s ← (if r = .retry then startTimer s else some s)
      some ({ s with st := .inOpen }, 0)
    else do
      let s ← closeIod s
      some (s, geNomem)

/-- `fd_cleared`, :850-885. -/
def cleared (s : St) (a : Arg) : Option St := do
  let s ← lock s
  let s ← ref s
  if s.st = .inOpenRetry then do
    let (s, e) ← retryOpen s a
    if e ≠ 0 then do
      let s ← deref s
      finishOpen s e .fin none
    else do
      let s ← setWr s s.iod true
      let s ← setEx s s.iod true
      derefUnlock s
  else do
    let s ← checkClose s a.cc
    derefUnlock s

/-- `fd_timeout`, :820-848. -/
def timeout (c : Cfg) (s : St) (a : Arg) : Option St := do
  let s ← lock s
  match s.tm with
  | .stopped => derefUnlock s
  | .stopping => derefUnlock { s with tm := .stopped }
  | .restart => do
    let s ← ref s
    let s ← timerOn s
    derefUnlock s
  | .running =>
    let s := { s with tm := .stopped }
    if s.st = .inClose then do
      let s ← checkClose s a.cc
      derefUnlock s
    else if s.st = .inOpen then writeReady c s s.iod a .fin none
    else derefUnlock s

/-- `fd_start_close`, :478-493. -/
def startClose (s : St) : Option St := do
  let s ← (if s.iod.isNone then sched { s with dClose := true }
    else if s.st ≠ .openErrWait && s.st ≠ .inOpenRetry then (stopTimer s).bind clear
    else some s)
  some { s with st := .inClose }

/-- `fd_open` after `sub_open`, :910-932. -/
def openSet (s : St) (r : OpRes) : Option St := do
  let s := { s with openDone := some s.nOpen, nOpen := s.nOpen + 1 }
  let s ← (if r = .done then some ({ s with st := .opened }.log (.openNow (s.nOpen - 1)))
    else do
      let s ← (if r = .retry then startTimer s else some s)
      let s := { s with st := .inOpen }
      let s ← setWr s s.iod true
      let s ← setEx s s.iod true
      some (s.log (.openAcc (s.nOpen - 1))))
  ref s

/-- `fd_open`, :887-937. -/
def open_ (s : St) (r : OpRes) (hOK : Bool) : Option St := do
  let s ← lock s
  if s.st ≠ .closed then some s
  else
    let s := { s with closeReq := false, openErr := 0, buf := [], recvd := [], taken := [] }
    match r with
    | .err _ => some s
    | r => do
      let (s, ok) ← setupHandlers (newIod s) hOK
      if ok then openSet s r else closeIod s

/-- `fd_close`, :967-973. -/
def closeSet (s : St) : Option St := do
  let s := { s with closeDone := some s.nClose, nClose := s.nClose + 1 }
  let s ← startClose s
  some { s.log (.closeAcc (s.nClose - 1)) with closeReq := true }

/-- `fd_close`, :949-986. -/
def close (s : St) : Option St := do
  let s ← lock s
  if s.closeReq then some s
  else
    match s.st with
    | .inOpen | .inOpenRetry => do
      let s ← sched { s with openErr := geLocalClosed, dOpen := true }
      closeSet s
    | .openErrWait => do
      let s ← sched { s with dOpen := true }
      closeSet s
    | .opened | .errWait => closeSet s
    | .closed => some { s with closeReq := true }
    | .inClose => none

/-- `fd_set_read_callback_enable`, :988-1011. -/
def setRead (c : Cfg) (s : St) (b : Bool) : Option St := do
  let s ← lock s
  if c.wrOnly then some s
  else
    let s := { s with rdEn := b }
    if s.inRd || s.st ≠ .opened || (!s.buf.isEmpty && !b) then some s
    else if !s.buf.isEmpty then sched { s with dRead := true }
    else do
      let s ← setRd s s.iod b
      setEx s s.iod (b || s.wrEn)

/-- `fd_set_write_callback_enable`, :1013-1031. -/
def setWrite (c : Cfg) (s : St) (b : Bool) : Option St := do
  let s ← lock s
  if c.rdOnly then some s
  else
    let s := { s with wrEn := b }
    if s.st = .opened || s.st = .inOpen || s.st = .inOpenRetry then do
      let s ← setWr s s.iod b
      setEx s s.iod (b || s.rdEn)
    else if s.dExc then sched s
    else some s

/-- `fd_free`, :1033-1057. -/
def free (s : St) : Option St := do
  let s ← lock s
  if s.freed then none
  else
    let s := { s with freed := true }
    match s.st with
    | .inClose | .closed => derefUnlock s
    | .opened | .errWait | .openErrWait => do
      let s ← startClose { s with closeDone := none }
      derefUnlock s
    | _ => none

/-- What happens. -/
inductive Act
  | open_ (r : OpRes) (hOK : Bool)
  | close
  | setRead (b : Bool)
  | setWrite (b : Bool)
  | free
  /-- The selector calls the read, write, except or cleared handler of a descriptor. -/
  | fireRd (i : Nat)
  | fireWr (i : Nat)
  | fireEx (i : Nat)
  | fireClr (i : Nat)
  /-- The selector calls the runner. -/
  | fireRun
  /-- The timer fires. -/
  | fireTm
  /-- Thread number `k` goes on. -/
  | go (k : Nat) (a : Arg)
  deriving DecidableEq, Repr

/-- A thread goes on; it is taken out of the list first. -/
def go (c : Cfg) (s : St) (t : Th) (a : Arg) : Option St :=
  match t.pc, t.h with
  | .rd0, h => incoming s h
  | .rdIO, h => gotData s a h
  | .rdCb e, h => readRet s e a.cnt h
  | .wr0, some i => do
    let s ← lock s
    let s ← ref s
    writeReady c s (some i) a .fin (some i)
  | .ex0, some i => except c s a i (some i)
  | .exOp, some i => exRet c s a i (some i)
  | .wrCb i k, _ => writeRet c s i a k
  | .cl0, _ => cleared s a
  | .run0, _ => run0 c s a
  | .dfRd, _ => dfRet s a.cnt
  | .tm0, _ => timeout c s a
  | .opCb _ k, _ => openRet c s a k
  | .clCb, _ => closeRet s
  | _, none => none

/-- One step. -/
def exec (c : Cfg) (s : St) : Act → Option St
  | .open_ r b => open_ s r b
  | .close => close s
  | .setRead b => setRead c s b
  | .setWrite b => setWrite c s b
  | .free => free s
  | .fireRd i => some (s.push .rd0 (some i))
  | .fireWr i => some (s.push .wr0 (some i))
  | .fireEx i => some (s.push .ex0 (some i))
  | .fireClr i => some ((s.setIod i { s.iods i with reg := .cleared }).push .cl0 none)
  | .fireRun => some ({ s with runQ := false }.push .run0 none)
  | .fireTm => some ({ s with tmRun := false }.push .tm0 none)
  | .go k a =>
    match s.th[k]? with
    | none => none
    | some t => go c { s with th := s.th.eraseIdx k } t a

/-- What the selector and the system can do: see the introduction.  An accepted open gives a fresh descriptor. -/
def can (s : St) : Act → Bool
  | .fireRd i => (s.iods i).reg = .active && (s.iods i).rd
  | .fireWr i => (s.iods i).reg = .active && (s.iods i).wr
  | .fireEx i => (s.iods i).reg = .active && (s.iods i).ex
  | .fireClr i => (s.iods i).reg = .clearing && s.th.all (fun t => t.h ≠ some i)
  | .fireRun => s.runQ
  | .fireTm => s.tmRun
  | .go k _ => k < s.th.length
  | _ => !s.freed

/-- A run of what can happen; `none` when the program crashes. -/
def run (c : Cfg) : St → List Act → Option St
  | s, [] => some s
  | s, a :: l => if can s a then (exec c s a).bind (fun s => run c s l) else none

/-- An accepted open is not reported yet, by the history (newest first). -/
def opening : List Ev → Bool
  | [] => false
  | .openAcc _ :: _ => true
  | .openDone _ _ :: _ => false
  | _ :: l => opening l

/-- An accepted close is not reported yet, by the history (newest first). -/
def closing : List Ev → Bool
  | [] => false
  | .closeAcc _ :: _ => true
  | .closeDone _ :: _ => false
  | _ :: l => closing l

/-- What the history (newest first) has to look like: a successful open is not reported after a close was accepted, and a
close not before the open is reported; the read and write callbacks are not called before the open is reported, the write
callback not after a close was accepted, and there is no data with an error. -/
def ordered : List Ev → Prop
  | [] => True
  | .openDone _ e :: l => (e = 0 → closing l = false) ∧ ordered l
  | .closeDone _ :: l => opening l = false ∧ ordered l
  | .read e d :: l => opening l = false ∧ (e ≠ 0 → d = []) ∧ ordered l
  | .write :: l => opening l = false ∧ closing l = false ∧ ordered l
  | .openAcc _ :: l => ordered l
  | .openNow _ :: l => ordered l
  | .closeAcc _ :: l => ordered l

/-- A thread is in the open or close callback. -/
def Th.inOC (t : Th) : Bool :=
  match t.pc with
  | .opCb _ _ => true
  | .clCb => true
  | _ => false

/-- What the theorems ask of the user and of the functions `ops->...`; each rule is needed, see `Verif.Props.LlFd`.
* Opens are not called while an accepted close is not reported or an open or close callback is running, and callbacks are
  disabled then.
* Reading is not enabled while an open or close is not reported; writing is not disabled while an open is not reported.
* The layer is not released while an open is not reported.
* `retry_open` does not succeed at once.
* Not both `sub_open` and `check_close` need time: `sub_open` may if `slow` is set, else `check_close`.
* An exception that was found while a callback was enabled is not handled after both were disabled.
* Out of band data does not come on a connection that was not reported open. -/
def fair (s : St) : Act → Bool
  | .open_ r _ => !closing s.ev && s.th.all (fun t => !t.inOC) && !s.rdEn && !s.wrEn &&
      (s.slow || (r ≠ .prog && r ≠ .retry))
  | .setRead b => !b || (!opening s.ev && !closing s.ev)
  | .setWrite b => b || !opening s.ev
  | .free => !opening s.ev
  | .go k a =>
    a.ro ≠ .done && a.ro ≠ .err 0 && (!s.slow || !a.cc) &&
    match s.th[k]? with
    | some t =>
      (!(t.pc = .ex0 || t.pc = .exOp) || s.rdEn || s.wrEn || s.st = .inOpen || s.st = .inOpenRetry) &&
      (!(t.pc = .exOp && a.oob) || (!opening s.ev && s.st ≠ .closed))
    | none => true
  | _ => true

/-- `fd_gensio_ll_alloc`, :1148-1215, without a descriptor, or with one. -/
def init (slow : Bool) : St := { slow := slow }
@[inherit_doc init] def initOpen (slow : Bool) : St :=
  { st := .opened, ref := 2, iod := some 0, nIod := 1, iods := fun i => if i = 0 then { reg := .active } else {}, slow := slow }

/-- States of fair runs. -/
inductive Fair (c : Cfg) : St → Prop
  | init (b : Bool) : Fair c (init b)
  | initOpen (b : Bool) : Fair c (initOpen b)
  | step {s s' : St} {a : Act} : Fair c s → can s a = true → fair s a = true → exec c s a = some s' → Fair c s'

end Gensio.LlFd
