import Verif.Model.CLib

/-!
# Synchronous reads and writes, `lib/gensio.c:3274-3622`

Threads call `gensio_read_s` and `gensio_write_s` on one gensio that has been given to `gensio_set_sync`.  A step is what is
done with `sync_io->lock` held.

Simplifications:
* A thread is a number and makes one call at a time; its `struct gensio_sync_op` is `op` of that number.
* `wait_intr` may return at any time: woken, time up or interrupted.  Which it was is an argument of the step.
* The gensio answers `gensio_write` with an error or the number of bytes taken, at most those given; when the answers given
  for a step run out nothing is taken.
* The argument `count` is not NULL.  Allocation of the waiter succeeds.
* The callback enables are kept as two flags; the gensio may call in any case.
* `gensio_clear_sync` is not called while calls wait.
-/

namespace Gensio.SyncIo

open Gensio.CLib

/-- Setting one value of a function. -/
def upd {α : Type} (f : Nat → α) (k : Nat) (v : α) (n : Nat) : α := if n = k then v else f n

/-- `struct gensio_sync_op`, :3274-3281.  For a read `buf` is what has been stored into the buffer, for a write what is left;
`len` is the room and later the number of bytes stored, or the number of bytes left. -/
structure Op where
  queued : Bool
  buf : List UInt8
  len : Nat
  err : Nat
  deriving DecidableEq

/-- What a thread is doing; for a write with `origlen`. -/
inductive Call
  | none
  | read
  | write (origlen : Nat)
  deriving DecidableEq

/-- `struct gensio_sync_io`, :3283-3292, and the calls. -/
structure Sync where
  readops : List Nat
  writeops : List Nat
  err : Nat
  op : Nat → Op
  call : Nat → Call
  readEn : Bool
  writeEn : Bool

/-- Answers of `gensio_write`. -/
inductive Ans
  | took (n : Nat)
  | err (e : Nat)
  deriving DecidableEq

/-- What happens. -/
inductive Act
  /-- Thread `i` calls `gensio_read_s` for `n` bytes. -/
  | readS (i n : Nat)
  /-- Its wait is over, with 0 (also for time up) or an error. -/
  | readWake (i rv : Nat)
  | writeS (i : Nat) (data : List UInt8)
  | writeWake (i rv : Nat)
  /-- The gensio calls with `GENSIO_EVENT_READ` and data. -/
  | event (data : List UInt8)
  /-- The gensio calls with `GENSIO_EVENT_READ` and an error. -/
  | eventErr (e : Nat)
  /-- The gensio calls with `GENSIO_EVENT_WRITE_READY`. -/
  | ready (answers : List Ans)
  /-- The gensio is closed, `check_flush_sync_io`, :3324-3336. -/
  | close
  deriving DecidableEq

/-- What can be seen from outside. -/
inductive Ev
  | silent
  /-- A call returns an error number, a count if one is stored, and for reads the data. -/
  | ret (rv : Nat) (count : Option Nat) (data : List UInt8)
  /-- The event handler takes bytes of what it was given. -/
  | consumed (n : Nat)
  /-- Bytes are passed to the gensio. -/
  | passed (data : List UInt8)
  deriving DecidableEq

def eLocalClosed : Nat := 35

/-- `gensio_sync_flush_waiters`, :3294-3321. -/
def Sync.flush (s : Sync) : Sync :=
  { s with op := fun i => if i ∈ s.readops ∨ i ∈ s.writeops then { s.op i with err := s.err, queued := false } else s.op i,
           readops := [], writeops := [] }

/-- The error is the first one. -/
def Sync.setErr (s : Sync) (e : Nat) : Sync := if s.err = 0 then { s with err := e } else s

/-- The loop :3363-3379.  `buflen` is what the loop tests, `doneLen` what is left. -/
def Sync.readLoop (s : Sync) (buf : List UInt8) (buflen : Nat) : List Nat → Nat → Sync × Nat
  | [], doneLen => ({ s with readops := [] }, doneLen)
  | i :: rest, doneLen =>
    if buflen = 0 then ({ s with readops := i :: rest }, doneLen)
    else
      let len := min doneLen (s.op i).len
      let op : Op := { s.op i with buf := buf.take len, len := len, queued := false }
      Sync.readLoop { s with op := upd s.op i op } buf buflen rest (doneLen - len)

/-- `GENSIO_EVENT_READ` with data, :3358-3385. -/
def Sync.event (s : Sync) (data : List UInt8) : Sync × Ev :=
  if s.readops = [] then ({ s with readEn := false }, .consumed 0)
  else
    let r := s.readLoop data data.length s.readops data.length
    (if r.2 > 0 then { r.1 with readEn := false } else r.1, .consumed (data.length - r.2))

/-- The loop :3393-3416. -/
def Sync.writeLoop (s : Sync) : List Nat → List Ans → Sync × List UInt8
  | [], _ => ({ s with writeops := [] }, [])
  | i :: rest, answers =>
    match answers with
    | [] => ({ s with writeops := i :: rest }, [])
    | .err e :: _ => (({ s with writeops := i :: rest }.setErr e).flush, [])
    | .took n :: answers =>
      let len := min n (s.op i).len
      let sent := (s.op i).buf.take len
      let op : Op := { s.op i with buf := (s.op i).buf.drop len, len := (s.op i).len - len }
      if op.len = 0 then
        let r := Sync.writeLoop { s with op := upd s.op i { op with queued := false } } rest answers
        (r.1, sent ++ r.2)
      else ({ s with op := upd s.op i op, writeops := i :: rest }, sent)

/-- `GENSIO_EVENT_WRITE_READY`, :3387-3421. -/
def Sync.ready (s : Sync) (answers : List Ans) : Sync × Ev :=
  if s.writeops = [] then ({ s with writeEn := false }, .passed [])
  else
    let r := s.writeLoop s.writeops answers
    (if r.1.writeops = [] then { r.1 with writeEn := false } else r.1, .passed r.2)

/-- `i_gensio_read_s`, :3490-3523, to the wait. -/
def Sync.readS (s : Sync) (i n : Nat) : Sync × Ev :=
  if n = 0 then (s, .ret 0 (some 0) [])
  else if s.err ≠ 0 then (s, .ret s.err none [])
  else ({ s with op := upd s.op i ⟨true, [], n, 0⟩, call := upd s.call i .read, readEn := true, readops := s.readops ++ [i] },
    .silent)

/-- `i_gensio_read_s` after the wait, :3526-3546. -/
def Sync.readWake (s : Sync) (i rv : Nat) : Sync × Ev :=
  let op := s.op i
  let ev := if op.err ≠ 0 then Ev.ret op.err none []
    else if op.queued then .ret rv (some 0) []
    else .ret rv (some op.len) (op.buf.take op.len)
  let s := if op.err = 0 ∧ op.queued = true then { s with readops := s.readops.erase i } else s
  let s := if s.readops = [] then { s with readEn := false } else s
  ({ s with call := upd s.call i .none }, ev)

/-- `i_gensio_write_s`, :3564-3600, to the wait. -/
def Sync.writeS (s : Sync) (i : Nat) (data : List UInt8) : Sync × Ev :=
  if data.length = 0 then (s, .ret 0 (some 0) [])
  else if s.err ≠ 0 then (s, .ret s.err none [])
  else ({ s with op := upd s.op i ⟨true, data, data.length, 0⟩, call := upd s.call i (.write data.length), writeEn := true,
                 writeops := s.writeops ++ [i] }, .silent)

/-- `i_gensio_write_s` after the wait, :3603-3620. -/
def Sync.writeWake (s : Sync) (i origlen rv : Nat) : Sync × Ev :=
  let op := s.op i
  let s := if op.queued then { s with writeops := s.writeops.erase i } else s
  let ev := if op.err ≠ 0 then Ev.ret op.err none [] else .ret rv (some (origlen - op.len)) []
  let s := if s.writeops = [] then { s with writeEn := false } else s
  ({ s with call := upd s.call i .none }, ev)

/-- One step; `none` when it cannot happen. -/
def Sync.step (s : Sync) : Act → Option (Sync × Ev)
  | .readS i n => if s.call i = .none then some (s.readS i n) else none
  | .readWake i rv => if s.call i = .read then some (s.readWake i rv) else none
  | .writeS i data => if s.call i = .none then some (s.writeS i data) else none
  | .writeWake i rv =>
    match s.call i with
    | .write origlen => some (s.writeWake i origlen rv)
    | _ => none
  | .event data => some (s.event data)
  | .eventErr e => if e = 0 then none else some ({ s.setErr e with readEn := false }.flush, .silent)
  | .ready answers => if .err 0 ∈ answers then none else some (s.ready answers)
  | .close => some ((s.setErr eLocalClosed).flush, .silent)

/-- After `gensio_set_sync`, :3432-3464. -/
def Sync.init (op : Nat → Op) : Sync :=
  { readops := [], writeops := [], err := 0, op := op, call := fun _ => .none, readEn := false, writeEn := false }

/-- What happened and what was seen. -/
abbrev Hist := List (Act × Ev)

/-- A run. -/
inductive Run (s0 : Sync) : Sync → Hist → Prop
  | nil : Run s0 s0 []
  | next {s t : Sync} {h : Hist} {a : Act} {e : Ev} : Run s0 s h → s.step a = some (t, e) → Run s0 t (h ++ [(a, e)])

end Gensio.SyncIo
