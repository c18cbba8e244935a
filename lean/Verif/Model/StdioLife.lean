/-!
# The life of the stdio gensio (`lib/gensio_stdio.c`)

The two channels of a connecting stdio gensio that runs a program, their
descriptors and handlers, the program, the wait for its end, the exit code and
the references to `struct stdiona_data` (`gensio_stdio.c:79-130`).  Reading and
writing are in `Verif.Model.Stdio`.

Every step is one stretch of code run with `nadata->lock` held.  `none` is a
failed assertion or a use of NULL.  Simplifications: `open_done` is run inside
the step of the deferred operation; a set-up of handlers in `gensio_open` fails
or succeeds for both descriptors; the options `self`, `console` and
`noredir-stderr` are not set; the memory of a buffer is not counted; pids and
descriptors are numbers that are never used twice.
-/

namespace Gensio.StdioLife

/-- The channels: `io` (stdin and stdout) and `err` (stderr) of
`struct stdiona_data` (`gensio_stdio.c:122-123`). -/
inductive C where
  | io
  | err
deriving DecidableEq, Repr

/-- `struct stdion_channel` (`gensio_stdio.c:29-77`), what its life needs. -/
structure Ch where
  /-- `in_iod`. -/
  inI : Option Nat := none
  /-- `out_iod`. -/
  outI : Option Nat := none
  /-- `in_handler_set`. -/
  inH : Bool := false
  /-- `out_handler_set`. -/
  outH : Bool := false
  /-- The descriptor whose handlers are set as those of the write side of this
  channel. -/
  inReg : Option Nat := none
  /-- The descriptor whose handlers are set as those of the read side. -/
  outReg : Option Nat := none
  /-- The handlers of `inReg` are being cleared. -/
  inClr : Bool := false
  /-- The handlers of `outReg` are being cleared. -/
  outClr : Bool := false
  /-- `closed`. -/
  closed : Bool := true
  /-- `in_close`. -/
  inClose : Bool := false
  /-- `close_done` is not NULL. -/
  cdone : Bool := false
  /-- `in_open`. -/
  inOpen : Bool := false
  /-- `deferred_close`. -/
  defClose : Bool := false
  /-- `deferred_op_pending`. -/
  opPend : Bool := false
  /-- `in_free`. -/
  inFree : Bool := false
  /-- `io` is not NULL and was not freed. -/
  here : Bool := false
  /-- `close_done` runs (`:357`); what follows, with the end of the function
  that led here, comes when it returns. -/
  inCb : Bool := false
  /-- `stdion_free` is between its unlock and its lock (`:862-865`). -/
  freeing : Bool := false
deriving DecidableEq, Repr

/-- `struct stdiona_data` (`gensio_stdio.c:79-130`). -/
structure S where
  io : Ch := { here := true }
  err : Ch := {}
  /-- The next descriptor. -/
  next : Nat := 0
  /-- The next pid. -/
  nextPid : Nat := 0
  /-- `opid`; `none` is -1. -/
  opid : Option Nat := none
  /-- `exit_code`. -/
  code : Nat := 0
  /-- `exit_code_set`. -/
  codeSet : Bool := false
  /-- `waitpid_retries`. -/
  retries : Nat := 0
  /-- The timer runs. -/
  timer : Bool := false
  /-- `closing_chan`. -/
  closing : Option C := none
  /-- `refcount`; 1 at first (`:1113`). -/
  ref : Nat := 1
  /-- `stdiona_finish_free` was called. -/
  freed : Bool := false
deriving DecidableEq, Repr

def S.ch (s : S) : C → Ch
  | .io => s.io
  | .err => s.err

def S.set (s : S) (c : C) (h : Ch) : S :=
  match c with
  | .io => { s with io := h }
  | .err => { s with err := h }

/-- What is seen. -/
inductive Out where
  /-- What a call returned. -/
  | ret (e : Nat)
  /-- `open_done`. -/
  | opened (c : C)
  /-- `close_done`. -/
  | closed (c : C)
  /-- A program was started. -/
  | exec (pid : Nat)
  /-- `o->wait_subprog` gave the status of a program. -/
  | waited (pid code : Nat)
  /-- The exit code given to the user. -/
  | code (n : Nat)
  /-- `gensio_data_free` of the gensio of a channel. -/
  | gone (c : C)
deriving DecidableEq, Repr

def GE_INVAL : Nat := 3
def GE_INUSE : Nat := 10
def GE_NOTREADY : Nat := 12
def GE_INPROGRESS : Nat := 11

/-- `NUM_WAIT_RETRIES` (`gensio_stdio.c:298`). -/
def NUM_WAIT_RETRIES : Nat := 1000

/-- The answer of `o->wait_subprog`: 0 with a status, `GE_INPROGRESS`, or an
error. -/
structure W where
  rv : Nat := 0
  code : Nat := 0
deriving DecidableEq, Repr

/-- `o->close` of a descriptor (`lib/os_unix.c:1341-1374`): its handlers must
not be set (`:1351`). -/
def S.closeIod (s : S) (i : Option Nat) : Bool :=
  match i with
  | none => true
  | some i =>
    s.io.inReg != some i && s.io.outReg != some i && s.err.inReg != some i && s.err.outReg != some i

/-- `stdiona_deref_and_unlock` (`gensio_stdio.c:197-207`). -/
def S.deref (s : S) : Option S :=
  if s.ref = 0 then none
  else some { s with ref := s.ref - 1, freed := s.ref == 1 }

/-- `check_waitpid` from `:343` on, and then the caller's
`stdiona_deref_and_unlock`: the descriptors are closed, and `close_done` is
called, after whose return (`S.cbRet`) the rest is done. -/
def S.closeAnyway (s : S) (c : C) (os : List Out) : Option (S × List Out) :=
  let h := s.ch c
  if s.closeIod h.inI && s.closeIod h.outI then
    let h := { h with inI := none, outI := none }
    if h.cdone then
      some (s.set c { h with inClose := false, cdone := false, inCb := true }, os ++ [.closed c])
    else if h.inFree && h.here then
      -- `:362-366`
      if s.ref ≤ 1 then none
      else
        match S.deref (S.set { s with ref := s.ref - 1 } c { h with here := false }) with
        | none => none
        | some s => some (s, os ++ [.gone c])
    else
      match S.deref (s.set c h) with
      | none => none
      | some s => some (s, os)
  else none

/-- `try_again` (`gensio_stdio.c:369-376`), and the caller's deref. -/
def S.tryAgain (s : S) (c : C) : Option (S × List Out) :=
  if s.retries ≥ NUM_WAIT_RETRIES then s.closeAnyway c []
  else if s.timer then none
  else
    match S.deref { s with retries := s.retries + 1, ref := s.ref + 1, timer := true, closing := some c } with
    | none => none
    | some s => some (s, [])

/-- `check_waitpid` (`gensio_stdio.c:299-341`); `buf`: `o->bufcount` says that
output waits. -/
def S.check (s : S) (c : C) (buf : Bool) (w : W) : Option (S × List Out) :=
  let c := s.closing.getD c
  let h := s.ch c
  if h.outI.isSome && buf && decide (s.retries < NUM_WAIT_RETRIES / 2) then s.tryAgain c
  else if s.closeIod h.inI && s.closeIod h.outI then
    let s := s.set c { h with inI := none, outI := none }
    match s.opid with
    | none => s.closeAnyway c []
    | some p =>
      if !s.io.outH && !s.io.inH && !s.err.outH then
        if w.rv = GE_INPROGRESS then s.tryAgain c
        else if w.rv = 0 then
          S.closeAnyway { s with opid := none, codeSet := true, code := w.code } c [.waited p w.code]
        else S.closeAnyway { s with opid := none, codeSet := true } c []
      else s.closeAnyway c []
  else none

/-- `close_done` returned: `gensio_stdio.c:358-367`, and the deref of the
caller. -/
def S.cbRet (s : S) (c : C) : Option (S × List Out) :=
  let h := { s.ch c with inCb := false }
  if h.inFree && h.here then
    if s.ref ≤ 1 then none
    else
      match S.deref (S.set { s with ref := s.ref - 1 } c { h with here := false }) with
      | none => none
      | some s => some (s, [.gone c])
  else
    match S.deref (s.set c h) with
    | none => none
    | some s => some (s, [])

/-- `stdion_fd_cleared` (`gensio_stdio.c:478-513`) once the channel has noted
that a handler is gone. -/
def S.clearedNext (s : S) (c : C) (buf : Bool) (w : W) : Option (S × List Out) :=
  let h := s.ch c
  if h.inClose && !h.inH && !h.outH then
    if c = .io && !s.err.outH && s.err.outI.isSome then
      if s.closeIod s.err.outI then S.check { s with err := { s.err with outI := none } } c buf w
      else none
    else s.check c buf w
  else
    match s.deref with
    | none => none
    | some s => some (s, [])

/-- `stdion_fd_cleared` for the handlers of the write side (`wr`) or the read
side of channel `c`: the descriptor must be one of the channel
(`gensio_stdio.c:484-492`), and is closed. -/
def S.fdCleared (s : S) (c : C) (wr : Bool) (buf : Bool) (w : W) : Option (S × List Out) :=
  let h := s.ch c
  let i := if wr then h.inReg else h.outReg
  let h := if wr then { h with inReg := none, inClr := false } else { h with outReg := none, outClr := false }
  if h.inI = i then S.clearedNext (s.set c { h with inH := false, inI := none }) c buf w
  else if h.outI = i then S.clearedNext (s.set c { h with outH := false, outI := none }) c buf w
  else none

/-- `stdion_start_deferred_op` (`gensio_stdio.c:467-476`). -/
def S.startOp (s : S) (c : C) : S :=
  if (s.ch c).opPend then s
  else { s.set c { s.ch c with opPend := true } with ref := s.ref + 1 }

/-- `o->set_fd_handlers` of `out_iod` and `in_iod` and the end of `stdion_open`
(`gensio_stdio.c:702-736`); a NULL `out_iod` is used. -/
def S.openHandlers (s : S) (c : C) (os : List Out) : Option (S × List Out) :=
  let h := s.ch c
  if h.outI.isNone then none
  else
    let h := { h with outH := true, outReg := h.outI, outClr := false, closed := false, inOpen := true }
    if h.inI.isNone then
      some (S.startOp (S.set { s with ref := s.ref + 1 } c h) c, os ++ [.ret 0])
    else
      some (S.startOp (S.set { s with ref := s.ref + 2 } c { h with inH := true, inReg := h.inI, inClr := false }) c,
        os ++ [.ret 0])

/-- `stdion_open` (`gensio_stdio.c:684-756`); `e` is what `o->exec_subprog`
(`io`) or `o->set_fd_handlers` (`err`) gives.  On an error the handlers of `io`
are taken away without a report (`cleanup_io_self`, `:673-682`) and the
descriptors of both channels are closed (`:741-748`). -/
def S.openCall (s : S) (c : C) (e : Nat) : Option (S × List Out) :=
  let h := s.ch c
  if !h.closed || h.inClose then some (s, [.ret GE_NOTREADY])
  else if e ≠ 0 then
    let o := if s.io.outH then { s.io with outReg := none, outH := false, outClr := false } else s.io
    let o := if o.inH then { o with inReg := none, inH := false, inClr := false } else o
    let s := { s with io := o }
    if s.closeIod s.io.inI && s.closeIod s.err.outI && s.closeIod s.io.outI then
      some ({ s with io := { s.io with inI := none, outI := none }, err := { s.err with outI := none } }, [.ret e])
    else none
  else
    match c with
    | .io =>
      S.openHandlers { s with opid := some s.nextPid, nextPid := s.nextPid + 1, next := s.next + 3, io := { s.io with inI := some s.next, outI := some (s.next + 1) }, err := { s.err with outI := some (s.next + 2) } }
        c [.exec s.nextPid]
    | .err => s.openHandlers c []

/-- `i_stdion_close` (`gensio_stdio.c:817-832`). -/
def S.iClose (s : S) (c : C) (done : Bool) : S :=
  S.startOp (s.set c { s.ch c with closed := true, inClose := true, cdone := done, defClose := true }) c

/-- `stdion_close` (`gensio_stdio.c:834-849`). -/
def S.closeCall (s : S) (c : C) (done : Bool) : S × List Out :=
  if (s.ch c).closed || (s.ch c).inClose then (s, [.ret GE_NOTREADY])
  else (s.iClose c done, [.ret 0])

/-- `stdion_free` (`gensio_stdio.c:851-872`) up to its unlock. -/
def S.freeCall (s : S) (c : C) : S :=
  let h := { s.ch c with inFree := true }
  if h.inClose then s.set c { h with cdone := false }
  else if h.closed then s.set c { h with freeing := true }
  else S.iClose (s.set c h) c false

/-- `stdion_free` of a closed channel (`gensio_stdio.c:862-867`):
`gensio_data_free` of a gensio that was freed already is `none`. -/
def S.freeEnd (s : S) (c : C) : Option (S × List Out) :=
  let h := s.ch c
  if h.here then
    match S.deref (s.set c { h with here := false, freeing := false }) with
    | none => none
    | some s => some (s, [.gone c])
  else none

/-- `stdion_deferred_op` (`gensio_stdio.c:422-465`) without the reading.
`clear_fd_handlers` of a descriptor without handlers does nothing
(`lib/os_unix.c:591-592`). -/
def S.runOp (s : S) (c : C) : Option (S × List Out) :=
  let h := s.ch c
  if (h.inOpen || h.defClose) && h.outI.isNone then none
  else
    let g := if h.defClose then
        { h with outClr := h.outClr || (h.outReg.isSome && h.outReg == h.outI), inClr := h.inClr || (h.inReg.isSome && h.inReg == h.inI) }
      else h
    match S.deref (s.set c { g with inOpen := false, defClose := false, opPend := false }) with
    | none => none
    | some s => some (s, if h.inOpen then [.opened c] else [])

/-- `stdion_alloc_channel` (`gensio_stdio.c:758-815`) on the gensio of `io`. -/
def S.alloc (s : S) : S × List Out :=
  if s.err.outI.isNone then (s, [.ret GE_INVAL])
  else if s.err.here then (s, [.ret GE_INUSE])
  else ({ s with err := { s.err with here := true }, ref := s.ref + 1 }, [.ret 0])

/-- `GENSIO_CONTROL_WAIT_TASK` (`gensio_stdio.c:959-974`). -/
def S.waitTask (s : S) (w : W) : S × List Out :=
  match s.opid with
  | none => (s, [.ret GE_NOTREADY])
  | some p =>
    if w.rv ≠ 0 then (s, [.ret w.rv])
    else ({ s with opid := none, code := w.code }, [.waited p w.code, .ret 0])

/-- `GENSIO_CONTROL_EXIT_CODE` (`gensio_stdio.c:947-957`). -/
def S.exitCode (s : S) : List Out :=
  if s.codeSet then [.code s.code] else [.ret GE_NOTREADY]

/-- What happens. -/
inductive Ev where
  | «open» (c : C) (e : Nat)
  | close (c : C) (done : Bool)
  | free (c : C)
  | freeEnd (c : C)
  | alloc
  | waitTask (w : W)
  | exitCode
  | run (c : C)
  | cleared (c : C) (wr : Bool) (buf : Bool) (w : W)
  | timeout (buf : Bool) (w : W)
  | cbRet (c : C)
deriving DecidableEq, Repr

/-- One step.  Steps of the system that can not happen now change nothing.
`check_waitpid_timeout` (`gensio_stdio.c:379-388`) always names `io`
(`:1121-1122`). -/
def S.step (s : S) : Ev → Option (S × List Out)
  | .open c e => s.openCall c e
  | .close c d => some (s.closeCall c d)
  | .free c => some (s.freeCall c, [])
  | .freeEnd c => if (s.ch c).freeing then s.freeEnd c else some (s, [])
  | .alloc => some s.alloc
  | .waitTask w => some (s.waitTask w)
  | .exitCode => some (s, s.exitCode)
  | .run c => if (s.ch c).opPend then s.runOp c else some (s, [])
  | .cleared c wr buf w =>
    if (if wr then (s.ch c).inClr else (s.ch c).outClr) then s.fdCleared c wr buf w else some (s, [])
  | .timeout buf w =>
    if s.timer then S.check { s with timer := false } .io buf w else some (s, [])
  | .cbRet c => if (s.ch c).inCb then s.cbRet c else some (s, [])

/-- Several steps. -/
def S.run (s : S) : List Ev → Option (S × List Out)
  | [] => some (s, [])
  | e :: es =>
    match s.step e with
    | none => none
    | some (s', o) =>
      match S.run s' es with
      | none => none
      | some (s'', o') => some (s'', o ++ o')

/-- A new gensio. -/
def init : S := {}

end Gensio.StdioLife
