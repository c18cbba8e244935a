/-!
# The reading side of the stdio gensio (`lib/gensio_stdio.c`)

One channel (`struct stdion_channel`, `gensio_stdio.c:29-78`) of the stdio
gensio: the data read from the program and not yet taken by the user, the
error, the switch of the user, the handler of the descriptor and the deferred
operation.  Every step is one stretch of code run with `nadata->lock` held;
while a callback of the user runs the lock is not held, so any other step may
come in between, from the callback itself or from another thread.

Simplifications: both descriptors of the channel are cleared in one step; the
wait for the program (`check_waitpid`, `:299-377`) is taken to succeed at the
first try (see `Verif.Model.StdioLife` for it); the except handlers, which run
the same code as the read handler (`:584-588`), are not distinguished from it;
a user of `gensio_open` gives an `open_done`.  Reference counts are in
`Verif.Model.StdioLife`.
-/

namespace Gensio.Stdio

/-- A call of `gensio_cb(…, GENSIO_EVENT_READ, …)` from `stdion_finish_read`
(`gensio_stdio.c:232-295`) that has not returned yet: with data (`:260-264`) or
with an error (`:249-253`). -/
inductive Cb where
  | data
  | err
deriving DecidableEq, Repr

/-- What the deferred operation (`stdion_deferred_op`,
`gensio_stdio.c:422-465`) waits for while it has released the lock: the
`open_done` of the user (`:433-435`) or a read callback (`:445-449`). -/
inductive Op where
  | opening
  | reading (c : Cb)
deriving DecidableEq, Repr

/-- The channel: `struct stdion_channel` (`gensio_stdio.c:29-78`), with the
place of the handler of the descriptor and of the deferred operation. -/
structure S where
  /-- `out_iod` is there. -/
  iod : Bool := false
  /-- `in_iod` is there. -/
  inIod : Bool := false
  /-- The read handler of `out_iod` is on (`set_read_handler`). -/
  rh : Bool := false
  /-- `clear_fd_handlers` was called, its report has not come. -/
  clearing : Bool := false
  /-- `ll_err`. -/
  llErr : Nat := 0
  /-- The bytes at `read_data + data_pos`, `data_pending_len` of them. -/
  pend : List UInt8 := []
  /-- `read_enabled`. -/
  renab : Bool := false
  /-- `in_read`. -/
  inRead : Bool := false
  /-- `closed`; true at first (`:1114`). -/
  closed : Bool := true
  /-- `in_close`. -/
  inClose : Bool := false
  /-- `in_open`. -/
  inOpen : Bool := false
  /-- `deferred_read`. -/
  defRead : Bool := false
  /-- `deferred_close`. -/
  defClose : Bool := false
  /-- `deferred_op_pending`. -/
  opPend : Bool := false
  /-- `in_free`. -/
  inFree : Bool := false
  /-- `io` is NULL: the gensio was freed. -/
  gone : Bool := false
  /-- `close_done` is not NULL. -/
  cdone : Bool := false
  /-- The read handler of the descriptor runs and waits for a callback. -/
  fd : Option Cb := none
  /-- The deferred operation runs and waits for a callback. -/
  op : Option Op := none
deriving DecidableEq, Repr

/-- What the user and the system see. -/
inductive Out where
  /-- `o->read` gave these bytes (`gensio_stdio.c:412-413`). -/
  | got (b : List UInt8)
  /-- A read callback with data (`:261`). -/
  | data (b : List UInt8)
  /-- A read callback with an error (`:250`). -/
  | err (e : Nat)
  /-- `open_done` (`:434`). -/
  | opened
  /-- `close_done` (`:357`). -/
  | closed
  /-- What a call of the user returned. -/
  | ret (e : Nat)
deriving DecidableEq, Repr

/-- `GE_NOTREADY` (`include/gensio/gensio_err.h`). -/
def GE_NOTREADY : Nat := 12

/-- What happens. -/
inductive Ev where
  /-- `gensio_open`; `e` is what setting the channel up gave. -/
  | «open» (e : Nat)
  /-- `gensio_close`, with or without a `close_done`. -/
  | close (done : Bool)
  /-- `gensio_free`. -/
  | free
  /-- `gensio_set_read_callback_enable`. -/
  | enable (b : Bool)
  /-- `gensio_write`; `e` is what `o->write` gives if it is called. -/
  | write (e : Nat)
  /-- The write ready callback of the user returned `e`. -/
  | writeReady (e : Nat)
  /-- The descriptor can be read; `r` is what `o->read` gives if called. -/
  | readReady (e : Nat) (b : List UInt8)
  /-- The read callback called from the handler returns. -/
  | retFd (e : Nat) (count : Nat)
  /-- The callback called from the deferred operation returns. -/
  | retOp (e : Nat) (count : Nat)
  /-- The runner of the deferred operation starts. -/
  | run
  /-- The handlers of the descriptors are gone (`stdion_fd_cleared`). -/
  | cleared
deriving DecidableEq, Repr

/-- The condition of the loop in `stdion_finish_read`
(`gensio_stdio.c:245-246`): something to tell, and the user wants it. -/
def S.ready (s : S) : Bool :=
  (!s.pend.isEmpty || s.llErr != 0) && s.renab

/-- The body of that loop up to the callback (`gensio_stdio.c:247-263`), for a
state that is `ready`: an error comes only when no data is left. -/
def S.call (s : S) : S × Cb × Out :=
  if s.llErr ≠ 0 ∧ s.pend = [] then
    ({ s with renab := false }, .err, .err s.llErr)
  else (s, .data, .data s.pend)

/-- The end of `stdion_finish_read` (`gensio_stdio.c:284-294`). -/
def S.finish (s : S) : S :=
  let s := { s with inRead := false }
  if s.iod then
    if s.closed then { s with rh := false }
    else if s.renab then { s with rh := true } else s
  else s

/-- The loop of `stdion_finish_read` once a callback returned
(`gensio_stdio.c:253-281`).  `none`: `set_read_handler` of NULL (`:256`,
`:278`).  The result: the state, and whether the loop goes on. -/
def S.back (s : S) (c : Cb) (e count : Nat) : Option (S × Bool) :=
  if e ≠ 0 then
    if s.iod then some ({ s with llErr := e, rh := false }, false) else none
  else
    match c with
    | .err => some (s, true)
    | .data => some ({ s with pend := s.pend.drop count }, true)

/-- The last part of `stdion_deferred_op` (`gensio_stdio.c:452-464`) with
`stdion_start_close` (`:394-404`), and the way back to `restart`: the close is
started, then an open or a read that was asked for meanwhile is done, else the
operation is over.  `none`: `clear_fd_handlers` of NULL. -/
def S.opTail (s : S) : Option (S × List Out) :=
  match (if s.defClose then
          (if s.iod then
            some { s with defClose := false, renab := false, clearing := true }
           else none)
         else some s) with
  | none => none
  | some s =>
    if s.inOpen then some ({ s with op := some .opening }, [.opened])
    else if s.defRead then
      let s := { s with defRead := false }
      if s.ready && !s.gone then
        let r := s.call
        some ({ r.1 with op := some (.reading r.2.1) }, [r.2.2])
      else some ({ s with opPend := false, op := none }, [])
    else some ({ s with opPend := false, op := none }, [])

/-- The loop around `stdion_finish_read` in `stdion_deferred_op`
(`gensio_stdio.c:445-449`), then the rest. -/
def S.opWhile (s : S) : Option (S × List Out) :=
  if s.ready && !s.gone then
    let r := s.call
    some ({ r.1 with op := some (.reading r.2.1) }, [r.2.2])
  else s.opTail

/-- `stdion_deferred_op` from `:443` on. -/
def S.opRead (s : S) : Option (S × List Out) :=
  if s.defRead then S.opWhile { s with defRead := false } else s.opTail

/-- `stdion_start_deferred_op` (`gensio_stdio.c:467-476`). -/
def S.startOp (s : S) : S := { s with opPend := true }

/-- `stdion_open` (`gensio_stdio.c:684-756`). -/
def S.openCall (s : S) (e : Nat) : S × List Out :=
  if !s.closed || s.inClose then (s, [.ret GE_NOTREADY])
  else if e ≠ 0 then (s, [.ret e])
  else
    (S.startOp { s with iod := true, inIod := true, rh := false, llErr := 0, closed := false, inOpen := true },
     [.ret 0])

/-- `i_stdion_close` (`gensio_stdio.c:817-832`). -/
def S.iClose (s : S) (done : Bool) : S :=
  S.startOp { s with closed := true, inClose := true, cdone := done, defClose := true }

/-- `stdion_close` (`gensio_stdio.c:834-849`). -/
def S.closeCall (s : S) (done : Bool) : S × List Out :=
  if s.closed || s.inClose then (s, [.ret GE_NOTREADY])
  else (s.iClose done, [.ret 0])

/-- `stdion_free` (`gensio_stdio.c:851-872`). -/
def S.freeCall (s : S) : S :=
  let s := { s with inFree := true }
  if s.inClose then { s with cdone := false }
  else if s.closed then { s with gone := true }
  else s.iClose false

/-- `stdion_set_read_callback_enable` (`gensio_stdio.c:515-540`). -/
def S.enableCall (s : S) (b : Bool) : S :=
  if s.renab = b then s
  else
    let s := { s with renab := b }
    if (!s.inClose && s.closed) || s.gone then s
    else if s.inRead || s.inOpen || (!s.pend.isEmpty && !b) then s
    else if !s.pend.isEmpty then
      S.startOp { s with defRead := true, inRead := true }
    else if s.iod then { s with rh := b }
    else s

/-- `stdion_write` (`gensio_stdio.c:210-229`); `none`: `o->write` of NULL. -/
def S.writeCall (s : S) (e : Nat) : Option (S × List Out) :=
  if s.llErr ≠ 0 then some (s, [.ret s.llErr])
  else if s.inIod then some ({ s with llErr := e }, [.ret e])
  else none

/-- `stdion_write_ready` once the callback returned `e`
(`gensio_stdio.c:604-610`). -/
def S.writeReady (s : S) (e : Nat) : S :=
  if e ≠ 0 then
    let s := { s with llErr := e }
    if s.iod then { s with rh := false } else s
  else s

/-- `stdion_finish_read` from the loop on, called from the read handler
(`gensio_stdio.c:245-294`). -/
def S.fdLoop (s : S) : S × List Out :=
  if s.ready then
    let r := s.call
    ({ r.1 with fd := some r.2.1 }, [r.2.2])
  else ({ s.finish with fd := none }, [])

/-- `stdion_read_ready` (`gensio_stdio.c:564-582`) with `stdion_do_read`
(`:406-420`) and the beginning of `stdion_finish_read` (`:239-243`). -/
def S.readReady (s : S) (e : Nat) (b : List UInt8) : S × List Out :=
  let s := { s with rh := false }
  if !s.renab || s.inRead || !s.pend.isEmpty then (s, [])
  else if s.llErr ≠ 0 then (s, [])
  else
    let s := { s with inRead := true }
    if e ≠ 0 then S.fdLoop { s with llErr := e }
    else
      let r := S.fdLoop { s with pend := b }
      (r.1, .got b :: r.2)

/-- `stdion_fd_cleared` (`gensio_stdio.c:478-513`) for both descriptors, and
the end of the close in `check_waitpid` (`:343-366`). -/
def S.clearedEv (s : S) : S × List Out :=
  let s := { s with clearing := false, iod := false, inIod := false, rh := false }
  if s.inClose then
    let r : S × List Out :=
      if s.cdone then ({ s with inClose := false, cdone := false }, [.closed])
      else (s, [])
    let s := r.1
    if s.inFree && !s.gone then ({ s with gone := true }, r.2) else (s, r.2)
  else (s, [])

/-- One step; `none` is a use of a NULL descriptor.  Steps of the system that
can not happen now (a handler that is off, a callback that does not run)
change nothing. -/
def S.step (s : S) : Ev → Option (S × List Out)
  | .open e => some (s.openCall e)
  | .close d => some (s.closeCall d)
  | .free => some (s.freeCall, [])
  | .enable b => some (s.enableCall b, [])
  | .write e => s.writeCall e
  | .writeReady e => if s.iod && !s.clearing then some (s.writeReady e, []) else some (s, [])
  | .readReady e b =>
    if s.rh && s.iod && !s.clearing && s.fd.isNone then some (s.readReady e b)
    else some (s, [])
  | .retFd e count =>
    match s.fd with
    | none => some (s, [])
    | some c =>
      match s.back c e count with
      | none => none
      | some (s, true) => some s.fdLoop
      | some (s, false) => some ({ s.finish with fd := none }, [])
  | .retOp e count =>
    match s.op with
    | none => some (s, [])
    | some .opening =>
      -- `:436-441`
      if s.iod then S.opRead { s with inOpen := false, rh := s.renab, op := none }
      else none
    | some (.reading c) =>
      match S.back { s with op := none } c e count with
      | none => none
      | some (s, true) =>
        if s.ready then
          let r := s.call
          some ({ r.1 with op := some (.reading r.2.1) }, [r.2.2])
        else S.opWhile s.finish
      | some (s, false) => S.opWhile s.finish
  | .run =>
    if s.opPend && s.op.isNone then
      if s.inOpen then some ({ s with op := some .opening }, [.opened])
      else s.opRead
    else some (s, [])
  | .cleared =>
    if s.clearing && s.fd.isNone then some s.clearedEv else some (s, [])

/-- Several steps. -/
def S.run (s : S) : List Ev → Option (S × List Out)
  | [] => some (s, [])
  | e :: es =>
    match s.step e with
    | none => none
    | some (s', o) =>
      match S.run s' es with
      | none => none
      | some (s'', o') => some (s'', o ++ o')

/-- A new channel (`gensio_stdio.c:1110-1117`). -/
def init : S := {}

end Gensio.Stdio
