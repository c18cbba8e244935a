/-!
# Model of lib/gensio_echo.c

A section of code between taking and releasing the lock is one step.  The deferred operation is
stopped in a callback when the lock is released (`Pc`); other threads, or the callback itself, may call
the functions of the gensio then.  The circular buffer is the queue it was shown to be in
Props/CircBuf.lean; how much of it is contiguous, so how much one callback is offered, is left open.
Not modelled: `echon_control`, allocation and its failures.
-/
namespace Gensio.Echo

/-- `enum echon_state`, gensio_echo.c:20-26. -/
inductive St where
  | closed | inOpen | «open» | inOpenClose | inClose
deriving DecidableEq, Repr

/-- An error: that of a closed gensio, or one the user's callback gave. -/
inductive Err where
  | localclosed
  | user
deriving DecidableEq, Repr

/-- The callback the deferred operation is in. -/
inductive Pc where
  | openCb
  /-- `n` bytes were offered. -/
  | readCb (n : Nat)
  | remCb
  | writeCb
  | closeCb
deriving DecidableEq, Repr

/-- Calls of the user's callbacks. -/
inductive Ev where
  | opened (id : Nat) (err : Option Err)
  | read (d : List UInt8)
  | remclose
  | writeReady
  | closed (id : Nat)
deriving DecidableEq, Repr

/-- `struct echon_data`, gensio_echo.c:28-56.  `queued`: the runner is scheduled; `pc`, `err`: where
the deferred operation is, and its variable `err`.  `freed`, `gone`: the user has called free, the
memory was freed.  `evs` are the callbacks, `got` the bytes the user took, `put` those accepted from
him, `opens` and `closes` the accepted calls. -/
structure E where
  st : St := .closed
  buf : List UInt8 := []
  cap : Nat
  noecho : Bool := false
  just : Bool := false
  rd : Bool := false
  wr : Bool := false
  openId : Option Nat := none
  closeId : Option Nat := none
  pend : Bool := false
  ref : Nat := 1
  queued : Bool := false
  pc : Option Pc := none
  err : Option Err := none
  freed : Bool := false
  gone : Bool := false
  evs : List Ev := []
  got : List UInt8 := []
  put : List UInt8 := []
  opens : List Nat := []
  closes : List Nat := []
deriving DecidableEq, Repr

/-- `echo_gensio_alloc`, gensio_echo.c:406-465: with `data` the buffer is as large as that and full. -/
def E.new (readbuf : Nat) (noecho : Bool) (data : Option (List UInt8)) : E :=
  match data with
  | some d => { cap := d.length, buf := d, noecho := noecho, just := noecho }
  | none => { cap := readbuf, noecho := noecho }

/-- `echon_unlock_and_deref`, gensio_echo.c:96-107; `none` if the assertion fails. -/
def deref (s : E) : Option E :=
  if s.ref = 0 then none
  else if s.ref = 1 then some { s with ref := 0, gone := true }
  else some { s with ref := s.ref - 1 }

/-- `echon_start_deferred_op`, gensio_echo.c:216-225; `none` if the assertion of `echon_ref` :89-94 fails. -/
def startOp (s : E) : Option E :=
  if s.pend then some s
  else if s.ref = 0 then none
  else some { s with pend := true, queued := true, ref := s.ref + 1 }

/-- The end of `echon_deferred_op`, gensio_echo.c:211-213. -/
def finish (s : E) : Option E := deref { s with pend := false, pc := none }

/-- The read callback, gensio_echo.c:174-178; `k` is what is contiguous. -/
def callRead (s : E) (k : Nat) : Option E :=
  some { s with pc := some (.readCb (min (max k 1) s.buf.length)), evs := s.evs ++ [.read (s.buf.take (min (max k 1) s.buf.length))] }

/-- gensio_echo.c:195-213, from the test for more to read on. -/
def goTail (s : E) (k : Nat) : Option E :=
  if s.err = none ∧ s.st = .open ∧ s.buf ≠ [] ∧ s.rd then callRead s k
  else if s.st = .inClose then
    let s := { s with st := .closed }
    match s.closeId with
    | some id => some { s with pc := some .closeCb, evs := s.evs ++ [.closed id] }
    | none => finish s
  else finish s

/-- gensio_echo.c:185-194: the loop of write callbacks. -/
def goWrite (s : E) (k : Nat) : Option E :=
  if s.st = .open ∧ s.buf.length < s.cap ∧ s.wr then
    some { s with pc := some .writeCb, evs := s.evs ++ [.writeReady] }
  else goTail s k

/-- gensio_echo.c:160-183: the loop of read callbacks. -/
def goRead (s : E) (k : Nat) : Option E :=
  if s.st = .open ∧ (s.buf ≠ [] ∨ s.just) ∧ s.rd then
    if s.buf = [] then some { s with rd := false, pc := some .remCb, evs := s.evs ++ [.remclose] }
    else callRead s k
  else goWrite s k

/-- gensio_echo.c:145-158, from the label `restart`. -/
def restart (s : E) (k : Nat) : Option E :=
  if s.st = .inOpen ∨ s.st = .inOpenClose then
    let s := if s.st = .inOpenClose then { s with st := .inClose, err := some .localclosed } else { s with st := .open }
    match s.openId with
    | some id => some { s with pc := some .openCb, evs := s.evs ++ [.opened id s.err] }
    | none => goRead s k
  else goRead s k

/-- The operation goes on after a callback that gave `err`, having taken `count` bytes if it was a read
callback. -/
def resume (s : E) (err : Option Err) (count k : Nat) : Option E :=
  match s.pc with
  | none => none
  | some .openCb => goRead s k
  | some (.readCb n) =>
    let s := { s with err := err }
    if err ≠ none then goWrite s k
    else if min count n > s.buf.length then none
    else goRead { s with got := s.got ++ s.buf.take (min count n), buf := s.buf.drop (min count n) } k
  | some .remCb => goRead s k
  | some .writeCb =>
    let s := { s with err := err }
    if err ≠ none then goTail s k else goWrite s k
  | some .closeCb => if s.st ≠ .closed then restart s k else finish s

/-- What can happen. -/
inductive Op where
  /-- The runner runs `echon_deferred_op`. -/
  | run (k : Nat)
  /-- The callback returns. -/
  | ret (err : Bool) (count k : Nat)
  | write (d : List UInt8)
  | setRead (b : Bool)
  | setWrite (b : Bool)
  | «open» (id : Option Nat)
  | close (id : Option Nat)
  | free
deriving DecidableEq, Repr

/-- A call by the user: not after free. -/
def Op.user : Op → Bool
  | .run _ | .ret .. => false
  | _ => true

/-- One step; `none` is an assertion that fails or a use of freed memory.  What cannot happen leaves
the state as it is. -/
def step (s : E) : Op → Option E
  | .run k => if s.queued then (if s.gone then none else restart { s with queued := false, err := none } k) else some s
  | .ret e count k => if s.pc.isSome then (if s.gone then none else resume s (if e then some .user else none) count k) else some s
  | o =>
    if s.freed then some s
    else if s.gone then none
    else match o with
    | .write d =>
      -- `echon_write`, gensio_echo.c:109-136
      if s.st ≠ .open then some s
      else if s.noecho then some s
      else
        let n := min d.length (s.cap - s.buf.length)
        let s := { s with buf := s.buf ++ d.take n, put := s.put ++ d.take n }
        if n ≠ 0 then startOp s else some s
    | .setRead b =>
      -- `echon_set_read_callback_enable`, gensio_echo.c:227-238
      let s := { s with rd := b }
      if b ∧ s.st = .open ∧ (s.buf ≠ [] ∨ s.just) then startOp s else some s
    | .setWrite b =>
      -- `echon_set_write_callback_enable`, gensio_echo.c:240-251
      let s := { s with wr := b }
      if b ∧ s.st = .open ∧ s.buf.length < s.cap then startOp s else some s
    | .open id =>
      -- `echon_open`, gensio_echo.c:253-272
      if s.st ≠ .closed then some s
      else startOp { s with st := .inOpen, openId := id, opens := s.opens ++ id.toList }
    | .close id =>
      -- `echon_close`, gensio_echo.c:274-296
      if s.st = .open then startOp { s with st := .inClose, closeId := id, closes := s.closes ++ id.toList }
      else if s.st = .inOpen then startOp { s with st := .inOpenClose, closeId := id, closes := s.closes ++ id.toList }
      else some s
    | _ =>
      -- `echon_free`, gensio_echo.c:298-306
      deref { s with st := .closed, freed := true }

/-- A run. -/
def run (s : E) : List Op → Option E
  | [] => some s
  | o :: os => (step s o).bind fun s => run s os

end Gensio.Echo
