/-!
# Opening, closing and releasing a base gensio, `lib/gensio_base.c`

The base gensio sits between a user, an optional filter and a lower layer (`ll`).  Every function takes `ndata->lock`.
A step of the model is what one thread does from taking the lock to giving it up; callbacks to the user and calls of the
filter that are made without the lock are places where the thread waits (`Pc`) while any other steps may come, among them
the calls that the user makes inside a callback.

What the filter and the lower layer answer is not modelled: the answers are arguments of the step (`Ans`), one number for
each call that the step can make, so a theorem for all steps is a theorem for every filter and every lower layer that keeps
the following contract (`En`):
* after `ll_open` returned 0 or its callback reported success the lower layer is open; it calls back for reads and writes
  only between then and the call of `basen_ll_close_done`, and at that call no such callback is active
  (comment at :931-937);
* `ll_open` that returned `GE_INPROGRESS` calls `basen_ll_open_done` once; if `ll_close` is called first, the call may come or
  not, but not after the call of `basen_ll_close_done`;
* `ll_close` that returned 0 calls `basen_ll_close_done` once; if it returned an error the lower layer is closed.

Timers are those of `lib/os_unix_selector.c` (see `Verif.Model.Selector`), one `Tm` for each of `timer` and `drain_timer`.

Simplifications:
* Data, auxdata, `ndata->io` events other than read and write ready, controls and `GENSIO_FUNC_DISABLE` are left out.
* `ndata->filter == NULL` is a filter with fixed answers.
* Which callbacks of the lower layer are enabled is not kept: the lower layer may call back at any time the contract allows.
* A callback function and its data are a number, new for each call of open and close; `none` is NULL.
* The filter calls `basen_start_timer_op`, `basen_stop_timer_op` and `basen_output_ready` from inside its functions, some of
  them without the lock (:1863-1894); here each of these calls is one step or part of one.
* Out of memory is not modelled.
* A failed `assert`, a call of a NULL function and any use of memory that was released makes the result `none`.
-/

namespace Gensio.Base

def geInprogress : Nat := 11
def geNotready : Nat := 12
def geInuse : Nat := 10
def geRetry : Nat := 15
def geLocalclosed : Nat := 35

/-- `enum basen_state`, :39-127. -/
inductive BS
  | closed | inLlOpen | inFilterOpen | opn | waitDrain | inFilterClose | inLlClose | inLlIoErr | ioErr
  deriving DecidableEq, Repr

/-- The lower layer: closed, opening, open, closing. -/
inductive LS
  | closed | opening | opn | closing
  deriving DecidableEq, Repr

/-- A timer of `os_unix_selector.c:130-159`; `done` is `done_handler` (there and in `os_unix.c:724-733`). -/
structure Tm where
  inHeap : Bool := false
  stopped : Bool := true
  inHandler : Bool := false
  done : Bool := false
  deriving DecidableEq, Repr

/-- Where a thread is that does not hold the lock and has not returned from the base gensio. -/
inductive Pc
  /-- In `open_done` called from `basen_ll_open_done` with an error, :1185, :990. -/
  | llOpenErr
  /-- In `open_done` called from `basen_deferred_op`, :1031, :990. -/
  | dOpen
  /-- In the read callback called from `basen_deferred_op` with an error, :1044. -/
  | dReadErr
  /-- In `filter_ll_write` called from `basen_deferred_op`, :1049. -/
  | dFilt
  /-- The same, in the read callback called from `basen_read_data_handler`, :799, :805. -/
  | dFiltCb
  /-- In the write ready callback called from `basen_deferred_op`, :1073. -/
  | dWrite
  /-- After `basen_unlock`, :948, before the members are read for the call at :949. -/
  | closePre
  /-- In `close_done`, :949, called from `basen_deferred_op`, :1089. -/
  | closing
  /-- In `filter_ll_write` called from `basen_ll_read`, :1718. -/
  | rFilt
  /-- The same, in the read callback called from `basen_read_data_handler`. -/
  | rFiltCb
  /-- In the write ready callback called from `basen_ll_read`, :1757. -/
  | rWrite
  /-- In the write ready callback called from `basen_ll_write_ready`, :1820. -/
  | wWrite
  /-- `basen_timeout` is called but does not have the lock yet, :1466. -/
  | tStart
  /-- In `gensio_filter_timeout` called from `basen_timeout`, :1479. -/
  | tFilt
  /-- `basen_timer_stopped` is called for `timer`, :670. -/
  | tStopped
  /-- `basen_timeout` or `basen_timer_stopped` is done with `ndata`, the selector has not yet noticed. -/
  | tRet
  /-- `basen_drain_timeout` is called, :1498. -/
  | dtStart
  /-- `basen_timer_stopped` is called for `drain_timer`. -/
  | dtStopped
  /-- The same as `tRet` for `drain_timer`. -/
  | dtRet
  deriving DecidableEq, Repr

/-- What the user sees; for the proofs only. -/
inductive TEv
  /-- An open was accepted (returned 0). -/
  | openOk (id : Nat)
  /-- The open callback is called. -/
  | openCb (id : Nat) (err : Nat)
  /-- A close was accepted. -/
  | closeOk (id : Nat)
  /-- The close callback is called. -/
  | closeCb (id : Nat)
  /-- The read callback is called, with data or with an error. -/
  | read
  /-- The write ready callback is called. -/
  | write
  /-- The user calls `gensio_free`. -/
  | free
  deriving DecidableEq, Repr

/-- `struct basen_data`, :150-214, with the lower layer, the threads and the history. -/
structure St where
  /-- `drain_timeout`. -/
  drain : Int := -1
  /-- `refcount`. -/
  ref : Nat := 1
  st : BS := .closed
  openDone : Option Nat := none
  closeDone : Option Nat := none
  closeReq : Bool := false
  wantClose : Bool := false
  inWrite : Nat := 0
  readEn : Bool := false
  inRead : Bool := false
  xmitEn : Bool := false
  inXmit : Bool := false
  redo : Bool := false
  canWrite : Bool := false
  llErr : Nat := 0
  openErr : Nat := 0
  dPend : Bool := false
  dRead : Bool := false
  dWrite : Bool := false
  dOpen : Bool := false
  dClose : Bool := false
  /-- `timer_start_pending`. -/
  tsp : Bool := false
  tm : Tm := {}
  dtm : Tm := {}
  /-- State of the lower layer. -/
  ll : LS := .closed
  /-- A call of `basen_ll_open_done` is still to come. -/
  llCb : Bool := false
  /-- Threads inside the base gensio that wait without the lock. -/
  th : List Pc := []
  /-- The user has called free. -/
  uf : Bool := false
  /-- `basen_finish_free` was called. -/
  freed : Bool := false
  /-- For the proofs: references that nobody will give back. -/
  leak : Nat := 0
  /-- Next callback number. -/
  nid : Nat := 0
  /-- History, newest first. -/
  tr : List TEv := []
  deriving DecidableEq, Repr

/-- Answers of filter and lower layer for one step: the call number `k` of the step gets `n k`; `clOk` says whether `ll_close`
succeeds. -/
structure Ans where
  n : Nat → Nat := fun _ => 0
  clOk : Bool := true

namespace Ans
/-- A Boolean answer. -/
def b (a : Ans) (k : Nat) : Bool := a.n k != 0
end Ans

/-- Do `f` if `c`. -/
def doIf (c : Bool) (f : St → Option St) (s : St) : Option St := if c then f s else some s

/-! ## Timers -/

namespace Tm

/-- `sel_start_timer`, os_unix_selector.c:947-975: refused when in the heap.  In a handler it is put into the heap later. -/
def start (t : Tm) : Option Tm :=
  if t.inHeap then none
  else some { t with inHeap := !t.inHandler, stopped := false }

/-- `sel_stop_timer`, :905-925, :978-988: 0 iff it was not stopped. -/
def stop (t : Tm) : Tm × Bool := ({ t with inHeap := false, stopped := true }, !t.stopped)

/-- `sel_stop_timer_with_done`, :991-1028, with `os_unix.c:833-856`. -/
def stopDone (t : Tm) : Tm :=
  if t.done then t
  else if t.stopped || t.inHandler then t
  else { inHeap := true, stopped := true, inHandler := true, done := true }

/-- `process_timers` once the handler has returned, os_unix_selector.c:1084-1091. -/
def ret (t : Tm) : Tm := { t with inHandler := false, inHeap := t.inHeap || !t.stopped }

end Tm

/-! ## References -/

/-- `i_basen_ref`, :275-281. -/
def ref (s : St) : Option St := if s.ref = 0 then none else some { s with ref := s.ref + 1 }

/-- `i_basen_deref`, :296-302. -/
def deref (s : St) : Option St := if s.ref ≤ 1 then none else some { s with ref := s.ref - 1 }

/-- `i_basen_deref_and_unlock`, :305-316, and `basen_finish_free`, :255-273. -/
def derefUnlock (s : St) : Option St :=
  if s.ref = 0 || s.freed then none
  else some { s with ref := s.ref - 1, freed := s.ref = 1 }

/-- `basen_start_timer`, :319-324.  A start in the handler of a timer that was started there already also returns 0. -/
def startTimer (s : St) : Option St :=
  match s.tm.start with
  | none => some s
  | some t => ref { s with tm := t, leak := s.leak + if s.tm.stopped then 0 else 1 }

/-- `basen_stop_timer`, :326-331.  Stopping a timer that waits for its done handler takes it out of the heap, the done handler
is not called any more and its reference is lost. -/
def stopTimer (s : St) : Option St :=
  let s' := { s with tm := s.tm.stop.1, leak := s.leak + if s.tm.done && s.tm.inHeap then 1 else 0 }
  if s.tm.stop.2 then deref s' else some s'

/-- `basen_start_drain_timer`, :676-684. -/
def startDrain (s : St) : Option St :=
  match s.dtm.start with
  | none => none
  | some t => ref { s with dtm := t, leak := s.leak + if s.dtm.stopped then 0 else 1 }

/-- `basen_stop_drain_timer`, :686-697. -/
def stopDrain (s : St) : St := { s with dtm := s.dtm.stopDone }

/-! ## The filter -/

/-- One call that the filter makes back: 1 `basen_start_timer_op`, :1873-1884; 2 `basen_stop_timer_op`, :1886-1894;
3 `basen_output_ready`, :1863-1871. -/
def fop (n : Nat) (s : St) : Option St :=
  match n with
  | 1 => if s.st = .opn || s.st = .waitDrain then startTimer s else some { s with tsp := true }
  | 2 => if s.st = .opn || s.st = .waitDrain then stopTimer s else some s
  | 3 => some { s with canWrite := false }
  | _ => some s

/-- The calls a filter function makes back; two answers. -/
def hook (a : Ans) (k : Nat) (s : St) : Option St := do
  let s ← fop (a.n k) s
  fop (a.n (k + 1)) s

/-- `basen_sched_deferred_op`, :1100-1108. -/
def sched (s : St) : Option St :=
  if s.dPend then some s else ref { s with dPend := true }

/-- `basen_set_ll_enables`, :574-620; the enables themselves are not kept.  One answer. -/
def setLlEnables (a : Ans) (k : Nat) (s : St) : Option St :=
  if s.st = .closed || s.llErr ≠ 0 then some s
  else if s.inRead then some s
  else if s.st = .opn && a.b k && s.readEn then sched { s with dRead := true }
  else some s

/-- `i_ll_close`, :552-559, on the contract above: 0 and the lower layer is closing, or an error and it is closed. -/
def llClose (a : Ans) (s : St) : St × Bool :=
  if a.clOk then ({ s with ll := .closing }, true) else ({ s with ll := .closed, llCb := false }, false)

/-- `ll_close` as used on the way to `BASEN_CLOSED`, for instance :907-915. -/
def llCloseOrDefer (a : Ans) (s : St) : Option St :=
  let (s, ok) := llClose a s
  if ok then some s else sched { s with dClose := true }

/-- `basen_close_from_wait_drain`, :829-842. -/
def closeFromWaitDrain (a : Ans) (s : St) : Option St :=
  let s := { s with st := .inLlClose }
  if s.inWrite = 0 then llCloseOrDefer a s else some { s with wantClose := true }

/-- `ll_close` as used after an I/O error, :878-880, :889-895. -/
def llCloseIoerr (a : Ans) (s : St) : St :=
  let (s, ok) := llClose a s
  if ok then s else { s with st := .ioErr }

/-- `i_handle_ioerr`, :844-922.  Two answers. -/
def handleIoerr (a : Ans) (k : Nat) (err : Nat) (s : St) : Option St :=
  if err = 0 then none
  else if s.llErr ≠ 0 then some s
  else
    let s := { s with llErr := err, openErr := err, canWrite := true }
    match s.st with
    | .closed | .inLlOpen | .ioErr => none
    | .inFilterOpen => do
      let s ← hook a k s
      some (llCloseIoerr a { s with st := .inLlIoErr })
    | .opn => do
      let s ← hook a k s
      let s ← sched { s with dRead := true, dWrite := true }
      let s := { s with st := .inLlIoErr }
      if s.inWrite = 0 then some (llCloseIoerr a s) else some { s with wantClose := true }
    | .waitDrain => do
      let s ← hook a k s
      closeFromWaitDrain a (stopDrain s)
    | .inFilterClose => do
      let s ← hook a k s
      let s := { s with st := .inLlClose }
      if s.inWrite = 0 then llCloseOrDefer a s else some { s with wantClose := true }
    | .inLlClose | .inLlIoErr => some s

/-- `filter_ul_write` with `basen_write_data_handler`, :439-449, :622-639, and the error returned.  Four answers. -/
def ulWrite (a : Ans) (k : Nat) (s : St) : Option (St × Nat) := do
  let s ← hook a k s
  some (if a.b (k + 2) then { s with canWrite := false } else s, a.n (k + 3))

/-- `basen_filter_ul_push` without the check at the end, :641-659, the error returned, and whether something was written.
Seven answers. -/
def push (a : Ans) (k : Nat) (s : St) : Option (St × Nat × Bool) :=
  if s.llErr = 0 && s.canWrite && a.b k then do
    let (s, err) ← ulWrite a (k + 1) s
    if err ≠ 0 then
      let s ← handleIoerr a (k + 5) err s
      some (s, err, false)
    else some (s, 0, true)
  else some (s, 0, false)

/-- `filter_ll_write_queued`, :380-386, `write_data_pending`, :661-665. -/
def writePending (a : Ans) (k : Nat) (s : St) : Bool := a.b k || s.inWrite != 0

/-- A filter function that returns an error code, with what it calls back.  Three answers. -/
def filtErr (a : Ans) (k : Nat) (s : St) : Option (St × Nat) := do
  let s ← hook a (k + 1) s
  some (s, a.n k)

/-- The end of `basen_filter_try_connect`, :1146-1156.  Two answers. -/
def tryConnectEnd (a : Ans) (k : Nat) (err : Nat) (s : St) : Option (St × Nat) := do
  let s ← setLlEnables a k s
  if err = geInprogress then some (s, geInprogress)
  else
    let s ← stopTimer s
    if err = geRetry then
      let s ← startTimer s
      some (s, geInprogress)
    else some (s, a.n (k + 1))

/-- `basen_filter_try_connect`, :1110-1157.  15 answers. -/
def tryConnect (a : Ans) (k : Nat) (s : St) : Option (St × Nat) := do
  let (s, err) ← filtErr a k s
  if err = geInprogress || err = geRetry then
    let (s, err2, _) ← push a (k + 3) s
    if err2 ≠ 0 then some (s, err2)
    else
      let (s, err2) ← filtErr a (k + 10) s
      if err2 ≠ 0 && err2 ≠ geInprogress && err2 ≠ geRetry then some (s, err2)
      else tryConnectEnd a (k + 13) (if err2 ≠ geInprogress then err2 else err) s
  else if err ≠ 0 then some (s, err)
  else tryConnectEnd a (k + 13) err s

/-- `basen_filter_try_connect_finish`, :1159-1172.  17 answers. -/
def tryConnectFinish (a : Ans) (k : Nat) (s : St) : Option St := do
  let (s, err) ← tryConnect a k s
  if err = 0 then sched { s with st := .opn, dOpen := true }
  else if err ≠ geInprogress then handleIoerr a (k + 15) err s
  else some s

/-- The end of `basen_filter_try_close`, :1329-1347. -/
def tryCloseEnd (a : Ans) (err : Nat) (s : St) : Option St :=
  if err = geInprogress then some s
  else if err = geRetry then do
    let s ← stopTimer s
    startTimer s
  else
    let s := { s with st := .inLlClose }
    if s.inWrite = 0 then llCloseOrDefer a s else some { s with wantClose := true }

/-- The second call of the filter in `basen_filter_try_close`.  Three answers. -/
def tryClose2 (a : Ans) (k : Nat) (err : Nat) (s : St) : Option (St × Nat) :=
  if err = geInprogress then filtErr a k s else some (s, err)

/-- `basen_filter_try_close`, :1316-1348.  14 answers. -/
def tryClose (a : Ans) (k : Nat) (s : St) : Option St := do
  let (s, err) ← filtErr a k s
  if err = geInprogress || err = geRetry then
    let (s, _, _) ← push a (k + 3) s
    let (s, err) ← tryClose2 a (k + 10) err s
    let s ← setLlEnables a (k + 13) s
    tryCloseEnd a err s
  else tryCloseEnd a err s

/-- `basen_finish_close` after the callback, :952-969. -/
def finishClose2 (s : St) : Option St :=
  deref { s with tm := s.tm.stopDone, dtm := s.dtm.stopDone }

/-- `basen_finish_close` up to the callback, :928-949; the flag says that the callback is to be called. -/
def finishClose (a : Ans) (k : Nat) (s : St) : Option (St × Bool) :=
  if s.inXmit then none
  else if s.dPend then some ({ s with dClose := true }, false)
  else if s.inRead then none
  else do
    let s ← hook a k s
    let s := { s with st := .closed }
    if s.closeDone.isSome then some (s, true)
    else
      let s ← finishClose2 s
      some (s, false)

/-- `basen_check_open_close_ops`, :1656-1678.  46 answers.

Simplification: it is called while the lower layer is open, by timer handlers and at the end of a deferred operation.  When it
gets past the test of `basen_finish_close` here the model stops. -/
def checkOps (a : Ans) (k : Nat) (s : St) : Option St :=
  if s.dClose then
    if !(s.inXmit || s.inRead) then
      if s.dPend then some s else none
    else some s
  else do
    let s ← doIf (s.st = .inFilterOpen) (tryConnectFinish a k) s
    let s ← doIf (s.st = .inFilterClose) (tryClose a (k + 17)) s
    if s.st = .waitDrain && !writePending a (k + 31) s then
      tryClose a (k + 32) { stopDrain s with st := .inFilterClose }
    else some s

/-- `basen_filter_ul_push` with the check, :641-659.  53 answers. -/
def pushCheck (a : Ans) (k : Nat) (s : St) : Option (St × Nat) := do
  let (s, err, wrote) ← push a k s
  if wrote then
    let s ← checkOps a (k + 7) s
    some (s, 0)
  else some (s, err)

/-- The first part of `basen_finish_open`, :978-984. -/
def finishOpenSt (err : Nat) (s : St) : Option St :=
  if err = 0 then
    if s.st = .inFilterOpen || s.st = .opn then doIf s.tsp startTimer { s with st := .opn } else none
  else some s

/-- `basen_finish_open` up to the callback, :972-990. -/
def finishOpen (err : Nat) (s : St) : Option St := do
  let s ← finishOpenSt err s
  match s.openDone with
  | none => none
  | some i => some { s with openDone := none, tr := .openCb i err :: s.tr }

/-- `basen_in_write_callbackable_state`, :1011-1017. -/
def writeCbState (s : St) : Bool := s.st = .opn || s.st = .inLlIoErr || s.st = .ioErr

/-- `basen_in_read_callbackable_state`, :999-1008. -/
def readCbState (s : St) : Bool :=
  s.st = .opn || s.st = .waitDrain || s.st = .inLlIoErr || s.st = .inLlClose || s.st = .inFilterClose || s.st = .ioErr

/-- `basen_can_deliver_ul_data`, :764-770. -/
def canDeliver (s : St) : Bool := s.st = .opn || s.st = .inLlIoErr || s.st = .ioErr

/-- The condition of the write ready loops, :1069-1071, :1753-1755, :1816-1818.  One answer. -/
def wantWriteCb (a : Ans) (k : Nat) (s : St) : Bool := writeCbState s && (a.b k || s.llErr != 0) && s.xmitEn

/-- The thread goes on at `p`. -/
def park (p : Pc) (s : St) : Option St := some { s with th := p :: s.th }

/-! ## `basen_deferred_op`, :1019-1098 -/

/-- The last push, :1093-1096. -/
def dPush (a : Ans) (k : Nat) (s : St) : Option St := do
  let (s, _) ← pushCheck a k s
  setLlEnables a (k + 53) s

/-- The end, :1093-1097. -/
def dEnd (a : Ans) (k : Nat) (s : St) : Option St := do
  let s ← doIf (s.st ≠ .closed) (dPush a k) s
  derefUnlock s

/-- The close part, :1085-1091. -/
def dCloseStep (a : Ans) (k : Nat) (s : St) : Option St :=
  if s.dClose && !(s.inXmit || s.inRead) then do
    let (s, cb) ← finishClose a k { s with dClose := false }
    if cb then park .closePre s else dEnd a (k + 2) s
  else dEnd a (k + 2) s

/-- The test of `while (deferred_write)`, :1064, reached from the end of its body. -/
def dWriteAgain (a : Ans) (k : Nat) (s : St) : Option St :=
  if s.dWrite then
    let s := { s with dWrite := false, inXmit := true }
    if wantWriteCb a k s then park .dWrite { s with tr := .write :: s.tr }
    else dCloseStep a (k + 1) { s with inXmit := false }
  else dCloseStep a (k + 1) s

/-- The loop of write ready callbacks, :1069-1081. -/
def dWriteLoop (a : Ans) (k : Nat) (s : St) : Option St :=
  if wantWriteCb a k s then park .dWrite { s with tr := .write :: s.tr }
  else dWriteAgain a (k + 1) { s with inXmit := false }

/-- The write part, :1064-1068. -/
def dWriteTop (a : Ans) (k : Nat) (s : St) : Option St :=
  if s.dWrite then
    let s := { s with dWrite := false }
    if s.inXmit then dCloseStep a k s
    else dWriteLoop a k { s with inXmit := true }
  else dCloseStep a k s

/-- The body of the inner read loop up to where the lock is given up, :1039-1049.  One answer. -/
def dReadIter (a : Ans) (k : Nat) (s : St) : Option St :=
  if s.llErr ≠ 0 && !a.b k then park .dReadErr { s with readEn := false, tr := .read :: s.tr }
  else park .dFilt s

/-- The read part, :1034-1038. -/
def dReadTop (a : Ans) (k : Nat) (s : St) : Option St :=
  if s.dRead then
    if s.inRead || !s.readEn then dWriteTop a (k + 1) s
    else dReadIter a k { s with dRead := false, inRead := true }
  else dWriteTop a (k + 1) s

/-- After a read callback or the filter returned `err`, :1053-1059. -/
def dReadRet (a : Ans) (err : Nat) (s : St) : Option St := do
  if err ≠ 0 then
    let s ← handleIoerr a 0 err s
    dReadTop a 2 { s with inRead := false }
  else if s.readEn && (s.llErr != 0 || a.b 0) then dReadIter a 1 s
  else dReadTop a 2 { s with inRead := false }

/-- After the write ready callback returned `err`, :1076-1081. -/
def dWriteRet (a : Ans) (err : Nat) (s : St) : Option St := do
  if err ≠ 0 then
    let s ← handleIoerr a 0 err s
    dWriteAgain a 2 { s with inXmit := false }
  else dWriteLoop a 2 s

/-- The start, :1025-1032. -/
def deferred (a : Ans) (s : St) : Option St :=
  let s := { s with dPend := false }
  if s.dOpen then do
    let s ← finishOpen s.openErr { s with dOpen := false }
    park .dOpen s
  else dReadTop a 0 s

/-- `basen_read_data_handler` from taking the lock, :783-806: either the read callback is called or the handler returns. -/
def handler (a : Ans) (inCb inFilt : Pc) (s : St) : Option St :=
  if canDeliver s && s.readEn && (a.b 0 || s.llErr != 0) then park inCb { s with tr := .read :: s.tr }
  else park inFilt s

/-! ## Calls of the lower layer -/

/-- `basen_ll_open_done`, :1174-1205. -/
def llOpenDone (a : Ans) (err : Nat) (s : St) : Option St := do
  let s ← ref s
  if s.llErr ≠ 0 || s.openErr ≠ 0 then derefUnlock s
  else if err ≠ 0 then
    let s ← finishOpen err { s with st := .closed }
    park .llOpenErr s
  else
    let s ← tryConnectFinish a 0 { s with st := .inFilterOpen }
    let s ← setLlEnables a 17 s
    derefUnlock s

/-- `basen_ll_close_done`, :514-550. -/
def llCloseDone (s : St) : Option St :=
  match s.st with
  | .inLlClose | .ioErr => sched { s with dClose := true }
  | .inLlIoErr =>
    let s := { s with st := .ioErr }
    if s.openDone.isSome then sched { s with dOpen := true } else some s
  | _ => none

/-- `basen_ll_read` at `out_finish`, :1767-1770. -/
def rFinish (a : Ans) (k : Nat) (s : St) : Option St := do
  let s ← setLlEnables a k s
  derefUnlock s

/-- The outer loop of `basen_ll_read`, :1704-1713.  Two answers. -/
def rTop (a : Ans) (k : Nat) (s : St) : Option St :=
  if a.b k && (s.readEn || a.b (k + 1)) then
    if s.inRead then derefUnlock s
    else park .rFilt { s with inRead := true }
  else rFinish a (k + 2) s

/-- The write ready loop of `basen_ll_read`, :1753-1764. -/
def rWriteLoop (a : Ans) (k : Nat) (s : St) : Option St :=
  if wantWriteCb a k s then park .rWrite { s with tr := .write :: s.tr } else rTop a (k + 1) s

/-- `basen_ll_read` up to the first call of the filter, :1680-1718. -/
def llRead (a : Ans) (err : Nat) (s : St) : Option St := do
  let s ← ref s
  if err ≠ 0 then
    let s ← handleIoerr a 0 err s
    rFinish a 2 s
  else if s.llErr ≠ 0 then rFinish a 2 s
  else rTop a 2 s

/-- The error part of the same. -/
def rErr (a : Ans) (err : Nat) (s : St) : Option St :=
  if err ≠ 0 && s.llErr = 0 then handleIoerr a 0 err s else doIf s.dRead sched s

/-- `basen_ll_read` after the filter returned `err`, :1722-1751. -/
def rRet (a : Ans) (err : Nat) (s : St) : Option St := do
  if s.llErr ≠ 0 || err ≠ 0 then
    let s ← rErr a err { s with inRead := false }
    rFinish a 2 s
  else if s.readEn && a.b 0 then park .rFilt s
  else
    let (s, _) ← pushCheck a 1 { s with inRead := false }
    let s ← checkOps a 60 s
    rWriteLoop a 110 s

/-- `basen_ll_read` after the write ready callback returned `err`, :1760-1764. -/
def rWriteRet (a : Ans) (err : Nat) (s : St) : Option St := do
  if err ≠ 0 then
    let s ← handleIoerr a 0 err s
    rTop a 2 s
  else rWriteLoop a 2 s

/-- `basen_ll_write_ready` at `out_setnotready`, :1835-1842. -/
def wEnd (a : Ans) (k : Nat) (s : St) : Option St := do
  let s ← setLlEnables a k s
  let s := { s with inXmit := false }
  let s ← doIf s.dWrite sched s
  derefUnlock s

/-- Pending data is written, :1803-1805.  Five answers. -/
def wPend (a : Ans) (k : Nat) (s : St) : Option (St × Nat) := if a.b k then ulWrite a (k + 1) s else some (s, 0)

/-- `basen_ll_write_ready` from `retry` to the loop, :1802-1814; the flag says that there was no error.  111 answers. -/
def wBody (a : Ans) (k : Nat) (s : St) : Option (St × Bool) := do
  let (s, err) ← wPend a k s
  if err ≠ 0 then
    let s ← handleIoerr a (k + 5) err s
    some (s, false)
  else
    let (s, _) ← pushCheck a (k + 7) s
    let s ← checkOps a (k + 60) s
    some (s, true)

/-- The loop and what follows, :1816-1833.  At the second time round `redo_xmit_ready` was just cleared. -/
def wLoop (a : Ans) (k : Nat) (s : St) : Option St :=
  if wantWriteCb a k s then park .wWrite { s with tr := .write :: s.tr }
  else if s.redo then
    let s := { s with redo := false }
    if s.xmitEn || a.b (k + 1) then do
      let (s, ok) ← wBody a (k + 2) s
      if !ok then wEnd a (k + 120) s
      else if wantWriteCb a (k + 119) s then park .wWrite { s with tr := .write :: s.tr }
      else wEnd a (k + 120) s
    else wEnd a (k + 120) s
  else wEnd a (k + 120) s

/-- `basen_ll_write_ready`, :1778-1814. -/
def llWriteReady (a : Ans) (s : St) : Option St := do
  let s ← ref s
  if s.llErr ≠ 0 then derefUnlock s
  else if s.inXmit then derefUnlock { s with redo := true }
  else
    let (s, ok) ← wBody a 0 { s with canWrite := true, inXmit := true }
    if ok then wLoop a 111 s else wEnd a 111 s

/-- After the write ready callback returned `err`, :1822-1825. -/
def wRet (a : Ans) (err : Nat) (s : St) : Option St := do
  if err ≠ 0 then
    let s ← handleIoerr a 0 err s
    wEnd a 2 s
  else wLoop a 2 s

/-! ## Calls of the user -/

/-- `basen_open` after `ll_open` returned 0, :1240-1249, and the common part of `basen_open_nochild`, :1293-1302. -/
def openFilter (a : Ans) (k : Nat) (s : St) : Option (St × Nat) := do
  let (s, err) ← tryConnect a k { s with st := .inFilterOpen }
  if err = 0 then
    let s ← sched { s with st := .opn, dOpen := true }
    some (s, 0)
  else if err = geInprogress then some (s, 0)
  else some (s, err)

/-- The members that an open sets, :1221-1236, :1279-1291. -/
def openInit (s : St) : St :=
  { s with llErr := 0, openErr := 0, inRead := false, dRead := false, dWrite := false, dOpen := false, dClose := false,
           readEn := false, xmitEn := false, tsp := false, openDone := some s.nid, nid := s.nid + 1 }

/-- The end of an open, :1253-1256, :1303-1306: the error is returned or the open is accepted. -/
def openEnd (err : Nat) (s : St) : Option St :=
  if err ≠ 0 then some { s with st := .closed }
  else do
    let s ← ref s
    some { s with tr := .openOk (s.nid - 1) :: s.tr }

/-- `basen_open`, :1207-1262.  Answer 0: `filter_setup`; answer 1: `ll_open`. -/
def open_ (a : Ans) (s : St) : Option St :=
  if s.st ≠ .closed then some s
  else if a.b 0 then some s
  else
    let s := { openInit s with canWrite := false, closeReq := false, wantClose := false, st := .inLlOpen }
    if a.n 1 = 0 then do
      let (s, err) ← openFilter a 2 { s with ll := .opn, llCb := false }
      openEnd err s
    else if a.n 1 = geInprogress then openEnd 0 { s with ll := .opening, llCb := true }
    else openEnd (a.n 1) s

/-- `basen_open_nochild`, :1264-1314, on a child that is open.  When it fails and the child is still open, the child is the
caller's again. -/
def openNochild (a : Ans) (s : St) : Option St :=
  if s.st ≠ .closed then some s
  else if a.b 0 then some s
  else do
    let (s, err) ← openFilter a 2 { openInit s with ll := .opn, llCb := false }
    let s ← openEnd err (if err ≠ 0 && s.ll = .opn then { s with ll := .closed } else s)
    setLlEnables a 20 s

/-- `base_gensio_server_start`, :2132-2163, of a gensio allocated by `base_gensio_server_alloc` on a child that is open; the
result is accepted when 0 is returned. -/
def serverStart (a : Ans) (s : St) : Option St :=
  if s.st ≠ .closed then some s
  else do
    let s := { s with openDone := some s.nid, nid := s.nid + 1, ll := .opn, llCb := false, st := .inFilterOpen }
    let (s, err) ← tryConnect a 2 s
    if err = 0 || err = geInprogress then
      let (s, err2) ← pushCheck a 20 s
      let s ← doIf (err = 0 && err2 = 0) (fun s => sched { s with st := .opn, dOpen := true }) s
      let s ← ref s
      setLlEnables a 80 (if err2 = 0 then { s with tr := .openOk (s.nid - 1) :: s.tr } else s)
    else some { s with st := .closed, ll := if s.ll = .opn then .closed else s.ll }

/-- The states in `basen_i_close`, :1365-1384. -/
def iCloseSt (a : Ans) (s : St) : Option St :=
  if s.st = .inLlOpen || s.st = .inFilterOpen then llCloseOrDefer a { s with st := .inLlClose }
  else if writePending a 0 s && s.drain ≠ 0 then doIf (s.drain > 0) startDrain { s with st := .waitDrain }
  else tryClose a 1 { s with st := .inFilterClose }

/-- `basen_i_close`, :1350-1386. -/
def iClose (a : Ans) (cd : Option Nat) (s : St) : Option St := do
  let s ← iCloseSt a { s with readEn := false, xmitEn := false, closeDone := cd, openErr := geLocalclosed }
  setLlEnables a 15 s

/-- A close is accepted: what `basen_close` returns 0 for. -/
def closeAcc (s : St) : St := { s with tr := .closeOk s.nid :: s.tr, nid := s.nid + 1 }

/-- `basen_close`, :1388-1420. -/
def close (a : Ans) (s : St) : Option St :=
  if s.closeReq then some s
  else
    let s := { s with closeReq := true }
    if s.st = .opn || s.st = .inFilterOpen || s.st = .inLlOpen then iClose a (some s.nid) (closeAcc s)
    else if s.st = .inLlIoErr then some { closeAcc s with closeDone := some s.nid, st := .inLlClose }
    else if s.st = .ioErr then sched { closeAcc s with closeDone := some s.nid, dClose := true }
    else some s

/-- The states in `basen_free`, :1427-1455. -/
def freeSt (a : Ans) (s : St) : Option St :=
  match s.st with
  | .closed => some s
  | .inLlOpen | .inFilterOpen | .opn => iClose a none s
  | .inLlIoErr => some { s with closeDone := none, st := .inLlClose }
  | .ioErr => sched { s with closeDone := none, dClose := true }
  | _ => some { s with closeDone := none }

/-- `basen_free`, :1422-1458. -/
def free (a : Ans) (s : St) : Option St := do
  let s ← freeSt a { s with uf := true, tr := .free :: s.tr }
  derefUnlock s

/-- The end of `basen_write` when a close waited for it, :730-756. -/
def writeWantClose (a : Ans) (s : St) : Option St :=
  match s.st with
  | .waitDrain => llCloseOrDefer a { stopDrain s with st := .inLlClose }
  | .inLlIoErr => some { s with st := .ioErr }
  | .inLlClose => sched { s with dClose := true }
  | _ => none

/-- The write proper in `basen_write`, :715-756. -/
def writeDo (a : Ans) (s : St) : Option St := do
  let (s, err) ← ulWrite a 0 { s with inWrite := s.inWrite + 1 }
  let s ← doIf (err ≠ 0) (handleIoerr a 4 err) { s with inWrite := s.inWrite - 1 }
  doIf (s.inWrite = 0 && s.wantClose) (writeWantClose a) s

/-- `basen_write`, :699-762. -/
def write (a : Ans) (s : St) : Option St := do
  let s ← doIf (s.st = .opn && s.llErr = 0) (writeDo a) s
  setLlEnables a 6 s

/-- `basen_set_read_callback_enable`, :1504-1537. -/
def setRead (a : Ans) (en : Bool) (s : St) : Option St :=
  if s.readEn = en then some s
  else if !readCbState s then some s
  else
    let s := { s with readEn := en }
    if s.dPend && en then some { s with dRead := true }
    else if en && (a.b 0 || s.llErr != 0) && (s.st = .opn || s.st = .ioErr || s.st = .inLlIoErr) then
      sched { s with dRead := true }
    else setLlEnables a 1 s

/-- `basen_set_write_callback_enable`, :1539-1557. -/
def setWrite (a : Ans) (en : Bool) (s : St) : Option St :=
  if s.xmitEn = en then some s
  else if !writeCbState s then some s
  else
    let s := { s with xmitEn := en }
    if en && (a.b 0 || s.llErr != 0) then sched { s with dWrite := true } else some s

/-! ## Timers going off and calls of the filter -/

/-- `basen_timeout` from the last part on, :1488-1490. -/
def tTail (a : Ans) (k : Nat) (s : St) : Option St := do
  let (s, _) ← pushCheck a k s
  let s ← setLlEnables a (k + 53) s
  let s ← derefUnlock s
  park .tRet s

/-- `basen_timeout`, :1460-1479. -/
def timeout (a : Ans) (s : St) : Option St :=
  match s.st with
  | .inFilterOpen => do
    let s ← tryConnectFinish a 0 s
    tTail a 20 s
  | .inFilterClose => do
    let s ← tryClose a 0 s
    tTail a 20 s
  | .opn | .waitDrain => park .tFilt s
  | _ => tTail a 20 s

/-- `basen_timeout` after the filter returned `err`, :1480-1483. -/
def timeoutRet (a : Ans) (err : Nat) (s : St) : Option St := do
  let s ← doIf (err ≠ 0) (handleIoerr a 0 err) s
  tTail a 20 s

/-- `basen_timer_stopped`, :667-674. -/
def timerStopped (p : Pc) (s : St) : Option St := do
  let s ← derefUnlock s
  park p s

/-- `basen_drain_timeout`, :1493-1502. -/
def drainTimeout (a : Ans) (s : St) : Option St := do
  let s ← doIf (s.st = .waitDrain) (closeFromWaitDrain a) s
  let s ← derefUnlock s
  park .dtRet s

/-- `process_timers` for `timer`, os_unix_selector.c:1057-1083: the handler or the done handler is called. -/
def fire (s : St) : St :=
  let t := { s.tm with inHeap := false, stopped := true }
  if s.tm.inHandler then { s with tm := { t with done := false }, th := .tStopped :: s.th }
  else { s with tm := { t with inHandler := true }, th := .tStart :: s.th }

/-- The same for `drain_timer`. -/
def dfire (s : St) : St :=
  let t := { s.dtm with inHeap := false, stopped := true }
  if s.dtm.inHandler then { s with dtm := { t with done := false }, th := .dtStopped :: s.th }
  else { s with dtm := { t with inHandler := true }, th := .dtStart :: s.th }

/-- `basen_filter_open_done`, :1904-1915. -/
def filtOpenDone (a : Ans) (s : St) : Option St :=
  if s.st = .inFilterOpen then do
    let s ← tryConnectFinish a 0 s
    setLlEnables a 17 s
  else some s

/-! ## Steps -/

/-- What can happen. -/
inductive Ev
  | open_ (a : Ans)
  | openNochild (a : Ans)
  | serverStart (a : Ans)
  | close (a : Ans)
  | free (a : Ans)
  | write (a : Ans)
  | setRead (a : Ans) (en : Bool)
  | setWrite (a : Ans) (en : Bool)
  | llOpenDone (a : Ans) (err : Nat)
  | llCloseDone
  | llRead (a : Ans) (err : Nat)
  | llWriteReady (a : Ans)
  /-- The runner of the deferred operation runs. -/
  | deferred (a : Ans)
  | fire
  | dfire
  | filtOpenDone (a : Ans)
  /-- `basen_filter_input_ready`, :1917-1925. -/
  | filtInput (a : Ans)
  /-- A call of the filter without the lock, see `fop`. -/
  | filtOp (n : Nat)
  /-- Thread number `i` goes on; the function it was in returned `r`.  In the filter `deliver` says that the filter calls
  `basen_read_data_handler`; in a read callback inside the filter it says that not all data was taken, so the handler looks
  again. -/
  | cont (a : Ans) (i : Nat) (r : Nat) (deliver : Bool)

/-- A thread at `p`, taken out of the list, goes on. -/
def resume (a : Ans) (r : Nat) (deliver : Bool) (s : St) : Pc → Option St
  | .llOpenErr => do
    let s ← deref s
    derefUnlock s
  | .dOpen => dReadTop a 0 s
  | .dReadErr => dReadRet a r s
  | .dFilt => if deliver then handler a .dFiltCb .dFilt s else dReadRet a r s
  | .dFiltCb => if deliver then handler a .dFiltCb .dFilt s else park .dFilt s
  | .dWrite => dWriteRet a r s
  | .closePre =>
    match s.closeDone with
    | none => none
    | some i => park .closing { s with tr := .closeCb i :: s.tr }
  | .closing => do
    let s ← finishClose2 s
    dEnd a 0 s
  | .rFilt => if deliver then handler a .rFiltCb .rFilt s else rRet a r s
  | .rFiltCb => if deliver then handler a .rFiltCb .rFilt s else park .rFilt s
  | .rWrite => rWriteRet a r s
  | .wWrite => wRet a r s
  | .tStart => timeout a s
  | .tFilt => timeoutRet a r s
  | .tStopped => timerStopped .tRet s
  | .tRet => some { s with tm := s.tm.ret }
  | .dtStart => drainTimeout a s
  | .dtStopped => timerStopped .dtRet s
  | .dtRet => some { s with dtm := s.dtm.ret }

/-- The thread at `p` does not touch `ndata` any more. -/
def Pc.out : Pc → Bool
  | .tRet | .dtRet => true
  | _ => false

/-- The thread at `p` is a callback of the lower layer. -/
def Pc.isLl : Pc → Bool
  | .rFilt | .rFiltCb | .rWrite | .wWrite => true
  | _ => false

/-- What may happen: the contract of the user (no call after free), of the lower layer, and of the selector. -/
def En (s : St) : Ev → Prop
  | .serverStart _ => s.uf = false ∧ s.nid = 0
  | .open_ _ | .openNochild _ | .close _ | .free _ | .write _ | .setRead .. | .setWrite .. => s.uf = false
  | .llOpenDone _ _ => s.llCb = true ∧ (s.ll = .opening ∨ s.ll = .closing)
  | .llCloseDone => s.ll = .closing ∧ ∀ p ∈ s.th, p.isLl = false
  | .llRead .. | .llWriteReady _ => s.llCb = false ∧ (s.ll = .opn ∨ s.ll = .closing)
  | .deferred _ => s.dPend = true
  | .fire => s.tm.inHeap = true
  | .dfire => s.dtm.inHeap = true
  | .filtOpenDone _ | .filtInput _ | .filtOp _ => s.freed = false
  | .cont _ i _ _ => i < s.th.length

/-- What a call of the lower layer says about its state. -/
def llOpened (err : Nat) (s : St) : St :=
  { s with llCb := false, ll := if s.ll = .opening then (if err = 0 then .opn else .closed) else s.ll }

/-- One step; `none` is a failed assertion or a use of released memory. -/
def exec (e : Ev) (s : St) : Option St :=
  match e with
  | .cont a i r d =>
    match s.th[i]? with
    | none => none
    | some p =>
      let s' := { s with th := s.th.eraseIdx i }
      if s.freed then (if p.out then some s' else none) else resume a r d s' p
  | e =>
    if s.freed then none
    else match e with
    | .open_ a => open_ a s
    | .openNochild a => openNochild a s
    | .serverStart a => serverStart a s
    | .close a => close a s
    | .free a => free a s
    | .write a => write a s
    | .setRead a en => setRead a en s
    | .setWrite a en => setWrite a en s
    | .llOpenDone a err => llOpenDone a err (llOpened err s)
    | .llCloseDone => llCloseDone { s with ll := .closed, llCb := false }
    | .llRead a err => llRead a err s
    | .llWriteReady a => llWriteReady a s
    | .deferred a => deferred a s
    | .fire => some (fire s)
    | .dfire => some (dfire s)
    | .filtOpenDone a => filtOpenDone a s
    | .filtInput a => setLlEnables a 0 s
    | .filtOp n => fop n s
    | .cont .. => none

/-- A gensio just allocated by `base_gensio_alloc`, :1960-2057. -/
def init (drain : Int) : St := { drain }

end Gensio.Base
