/-!
# The stdio accepter (`lib/gensio_stdio.c:1286-1481`)

The accepter that gives one gensio on standard input and output when it is
started up, and the life of that gensio as far as the accepter has functions of
its own for it.  Every step is one stretch of code run with `nadata->lock`
held; callbacks are called without the lock, so that anything may happen before
they return.  `none` is a failed assertion.

Simplifications: callbacks of the user are numbers, and a call that gives one
gives a new one.  Reads and writes are left out (`Gensio.Stdio` has them), and
with them the parts of the deferred operation that read.  The gensio is not
opened again after a close.  That the operating system functions have dropped a
handler and the call of `stdiona_fd_cleared` is one step; `handlers_set` of the
descriptor (`os_unix.c:562, 580-581`) is then the same as `in_handler_set` or
`out_handler_set`.
-/

namespace Gensio.StdioAcc

def GE_INUSE : Nat := 10
def GE_NOTREADY : Nat := 12

/-- Where the run of `stdiona_do_connect` is (`gensio_stdio.c:1286-1314`); not
idle is `in_connect_runner`. -/
inductive R where
  | idle
  | queued
  /-- In the callback for the new connection (`gensio_stdio.c:1296`). -/
  | conn
  /-- Between the unlock and the look at `shutdown_done`
  (`gensio_stdio.c:1303-1304`). -/
  | window
  /-- In `shutdown_done` (`gensio_stdio.c:1305`). -/
  | shut
deriving DecidableEq, Repr

/-- `struct stdiona_data` and its channel `io`, as far as they matter here
(`gensio_stdio.c:29-130`). -/
structure S where
  enabled : Bool := false
  inStartup : Bool := false
  inShutdown : Bool := false
  /-- `shutdown_done`. -/
  sdone : Option Nat := none
  /-- The run of the connect runner. -/
  cr : R := .idle
  /-- `enable_done`. -/
  edone : Option Nat := none
  /-- The enable runner is queued. -/
  eq : Bool := false
  /-- Calls of `enable_done` that have not returned. -/
  efr : Nat := 0
  /-- `in_free` of the accepter. -/
  inFree : Bool := false
  /-- The channel: `io` is there. -/
  io : Bool := true
  closed : Bool := true
  inClose : Bool := false
  /-- `close_done`. -/
  cdone : Option Nat := none
  /-- `in_free` of the channel. -/
  gFree : Bool := false
  /-- `in_handler_set`, `out_handler_set`, with the handlers of the operating
  system functions. -/
  hIn : Bool := false
  hOut : Bool := false
  /-- The handlers are being cleared. -/
  cIn : Bool := false
  cOut : Bool := false
  /-- `deferred_op_pending`, `deferred_close`. -/
  defPend : Bool := false
  defClose : Bool := false
  /-- Calls of `close_done` that have not returned. -/
  cfr : Nat := 0
  /-- `refcount`. -/
  ref : Nat := 1
  freed : Bool := false
  /-- Not in the code: how many references were taken for the gensio
  (`gensio_stdio.c:1395`) and not yet dropped by `stdion_free`. -/
  grefs : Nat := 0
  /-- Not in the code: how many references nothing is left to drop. -/
  lost : Nat := 0
deriving DecidableEq, Repr

/-- What is seen. -/
inductive Out where
  | ret (e : Nat)
  /-- `GENSIO_ACC_EVENT_NEW_CONNECTION`, with a gensio or NULL. -/
  | newConn (io : Bool)
  /-- `shutdown_done` is called. -/
  | shut (k : Nat)
  /-- `enable_done` is called. -/
  | enab (k : Nat)
  /-- `close_done` of the gensio is called. -/
  | closeDone (k : Nat)
  | freed
deriving DecidableEq, Repr

/-- 1 for true. -/
def n (b : Bool) : Nat := if b then 1 else 0

/-- `stdiona_deref_and_unlock` (`gensio_stdio.c:198-208`). -/
def S.deref (s : S) : Option (S × List Out) :=
  if s.ref = 0 then none
  else if s.ref = 1 then some ({ s with ref := 0, freed := true }, [.freed])
  else some ({ s with ref := s.ref - 1 }, [])

/-- `stdiona_ref` (`gensio_stdio.c:184-189`). -/
def S.take (s : S) : Option S :=
  if s.ref = 0 then none else some { s with ref := s.ref + 1 }

/-- Start the connect runner (`gensio_stdio.c:1390-1394, 1423-1427`). -/
def S.runner (s : S) : Option S :=
  if s.cr = .idle then
    match s.take with
    | none => none
    | some s => some { s with cr := .queued }
  else some s

/-- `cleanup_io_self` (`gensio_stdio.c:673-682`): the handlers are dropped
without a report, and what they held is lost. -/
def S.cleanup (s : S) : S :=
  { s with lost := s.lost + n s.hIn + n s.hOut, hIn := false, hOut := false, cIn := false, cOut := false }

/-- What the operating system makes of a startup: the error of `setup_io_self`,
of the first or the second `set_fd_handlers`; 0 for none. -/
structure Os where
  setup : Nat := 0
  first : Nat := 0
  second : Nat := 0
deriving DecidableEq, Repr

/-- `stdiona_startup` after both handlers are set (`gensio_stdio.c:1387-1400`). -/
def S.started (s : S) : Option (S × List Out) :=
  match S.runner { s with closed := false, inStartup := true, enabled := true } with
  | none => none
  | some s =>
    match s.take with
    | none => none
    | some s => some ({ s with grefs := s.grefs + 1 }, [.ret 0])

/-- `stdiona_startup`: the handler of standard input (`gensio_stdio.c:1379-1385`). -/
def S.second (s : S) (os : Os) : Option (S × List Out) :=
  if s.hOut then some (s.cleanup, [.ret GE_INUSE])
  else if os.second ≠ 0 then some (s.cleanup, [.ret os.second])
  else
    match S.take { s with hOut := true } with
    | none => none
    | some s => s.started

/-- `stdiona_startup` (`gensio_stdio.c:1349-1404`).  `set_fd_handlers` refuses
a descriptor that has handlers (`os_unix.c:562-563`). -/
def S.startup (s : S) (os : Os) : Option (S × List Out) :=
  if s.inFree ∨ s.inShutdown then some (s, [.ret GE_NOTREADY])
  else if s.enabled then some (s, [.ret GE_INUSE])
  else if os.setup ≠ 0 then some (s, [.ret os.setup])
  else if s.hIn then some (s.cleanup, [.ret GE_INUSE])
  else if os.first ≠ 0 then some (s.cleanup, [.ret os.first])
  else
    match S.take { s with hIn := true } with
    | none => none
    | some s => s.second os

/-- `stdiona_shutdown` (`gensio_stdio.c:1406-1432`). -/
def S.shutdown (s : S) (k : Option Nat) : Option (S × List Out) :=
  if s.inFree then some (s, [.ret GE_NOTREADY])
  else if s.inShutdown ∨ s.enabled = false then some (s, [.ret GE_NOTREADY])
  else
    match S.runner { s with inShutdown := true, enabled := false, sdone := k } with
    | none => none
    | some s => some (s, [.ret 0])

/-- `stdiona_set_accept_callback_enable` (`gensio_stdio.c:1452-1471`): a runner
that is queued is not queued again, but the reference is taken. -/
def S.enable (s : S) (k : Option Nat) : Option (S × List Out) :=
  if s.edone.isSome then some (s, [.ret GE_INUSE])
  else
    match S.take { s with edone := k } with
    | none => none
    | some s => some ({ s with eq := true, lost := s.lost + n s.eq }, [.ret 0])

/-- `enable_done_op` up to its callback (`gensio_stdio.c:1434-1450`). -/
def S.runEn (s : S) : Option (S × List Out) :=
  match s.edone with
  | some k => some ({ s with eq := false, edone := none, efr := s.efr + 1 }, [.enab k])
  | none => S.deref { s with eq := false }

/-- `stdiona_free` (`gensio_stdio.c:1473-1481`). -/
def S.freeAcc (s : S) : Option (S × List Out) :=
  S.deref { s with inFree := true }

/-- `stdiona_do_connect` at the end of its loop and, if that goes round, from
its start (`gensio_stdio.c:1309-1314`). -/
def S.afterShut (s : S) : Option (S × List Out) :=
  if s.inStartup then some ({ s with inStartup := false, cr := .conn }, [.newConn s.io])
  else if s.inShutdown then some ({ s with inShutdown := false, cr := .window }, [])
  else S.deref { s with cr := .idle }

/-- `stdiona_do_connect` from its start (`gensio_stdio.c:1286-1314`). -/
def S.runConn (s : S) : Option (S × List Out) := s.afterShut

/-- `stdiona_do_connect` after the callback of the new connection
(`gensio_stdio.c:1298-1307`). -/
def S.connRet (s : S) : Option (S × List Out) :=
  if s.inShutdown then some ({ s with inShutdown := false, cr := .window }, [])
  else s.afterShut

/-- `stdiona_do_connect` looks at `shutdown_done` without the lock
(`gensio_stdio.c:1304-1306`). -/
def S.look (s : S) : Option (S × List Out) :=
  match s.sdone with
  | some k => some ({ s with cr := .shut }, [.shut k])
  | none => s.afterShut

/-- `stdion_start_deferred_op` (`gensio_stdio.c:467-476`). -/
def S.defer (s : S) : Option S :=
  if s.defPend then some s else S.take { s with defPend := true }

/-- `i_stdion_close` (`gensio_stdio.c:817-832`). -/
def S.iclose (s : S) (k : Option Nat) : Option S :=
  S.defer { s with closed := true, inClose := true, cdone := k, defClose := true }

/-- `stdion_close` (`gensio_stdio.c:834-849`). -/
def S.close (s : S) (k : Option Nat) : Option (S × List Out) :=
  if s.closed ∨ s.inClose then some (s, [.ret GE_NOTREADY])
  else
    match s.iclose k with
    | none => none
    | some s => some (s, [.ret 0])

/-- `stdion_free` (`gensio_stdio.c:851-872`). -/
def S.freeIo (s : S) : Option (S × List Out) :=
  if s.inClose then some ({ s with gFree := true, cdone := none }, [])
  else if s.closed then S.deref { s with gFree := true, io := false, grefs := s.grefs - 1 }
  else
    match S.iclose { s with gFree := true } none with
    | none => none
    | some s => some (s, [])

/-- `stdion_deferred_op` (`gensio_stdio.c:422-465`), with `stdion_start_close`
(`gensio_stdio.c:394-404`); handlers that are not set are not cleared
(`os_unix.c:591-592`). -/
def S.runDef (s : S) : Option (S × List Out) :=
  if s.defClose then
    S.deref { s with defClose := false, cIn := s.cIn || s.hIn, cOut := s.cOut || s.hOut, defPend := false }
  else S.deref { s with defPend := false }

/-- `stdiona_fd_cleared` after the handler is off (`gensio_stdio.c:1331-1346`). -/
def S.cleared (s : S) : Option (S × List Out) :=
  if s.hIn = false ∧ s.hOut = false ∧ s.inClose = true then
    match s.cdone with
    | some k => some ({ s with inClose := false, cdone := none, cfr := s.cfr + 1 }, [.closeDone k])
    | none => S.deref { s with inClose := false }
  else s.deref

/-- What happens. -/
inductive Ev where
  | startup (os : Os)
  | shutdown (k : Option Nat)
  | enable (k : Option Nat)
  | freeAcc
  /-- The user closes or frees the gensio. -/
  | close (k : Option Nat)
  | freeIo
  /-- The connect runner runs, its callbacks return, it looks at
  `shutdown_done`. -/
  | runConn
  | connRet
  | look
  | shutRet
  /-- The enable runner runs, its callback returns. -/
  | runEn
  | enRet
  /-- The deferred operation runs. -/
  | runDef
  /-- The handler of standard output (`in_iod`) or input (`out_iod`) was
  cleared (`stdiona_fd_cleared`, `gensio_stdio.c:1319-1347`), the callback
  returns. -/
  | clearedIn
  | clearedOut
  | clearRet
deriving DecidableEq, Repr

/-- One step; what cannot happen changes nothing. -/
def S.step (s : S) : Ev → Option (S × List Out)
  | .startup os => s.startup os
  | .shutdown k => s.shutdown k
  | .enable k => s.enable k
  | .freeAcc => s.freeAcc
  | .close k => s.close k
  | .freeIo => s.freeIo
  | .runConn => if s.cr = .queued then s.runConn else some (s, [])
  | .connRet => if s.cr = .conn then s.connRet else some (s, [])
  | .look => if s.cr = .window then s.look else some (s, [])
  | .shutRet => if s.cr = .shut then s.afterShut else some (s, [])
  | .runEn => if s.eq then s.runEn else some (s, [])
  | .enRet => if s.efr = 0 then some (s, []) else S.deref { s with efr := s.efr - 1 }
  | .runDef => if s.defPend then s.runDef else some (s, [])
  | .clearedIn => if s.cIn then S.cleared { s with hIn := false, cIn := false } else some (s, [])
  | .clearedOut => if s.cOut then S.cleared { s with hOut := false, cOut := false } else some (s, [])
  | .clearRet => if s.cfr = 0 then some (s, []) else S.deref { s with cfr := s.cfr - 1 }

/-- Many steps. -/
def S.steps (s : S) : List Ev → Option (S × List Out)
  | [] => some (s, [])
  | e :: es =>
    match s.step e with
    | none => none
    | some (s, o) =>
      match s.steps es with
      | none => none
      | some (s', o') => some (s', o ++ o')

/-- After `stdio_gensio_accepter_alloc` (`gensio_stdio.c:1508-1577`). -/
def init : S := {}

end Gensio.StdioAcc
