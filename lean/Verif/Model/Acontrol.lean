/-!
# Asynchronous controls and waiting for them (`lib/gensio.c:604-733`)

`gensio_acontrol` finds the gensio of a stack that handles a control;
`gensio_acontrol_s` and `gensio_acontrol_s_intr` wait for the answer, which
`gensio_acontrol_s_done` puts into the caller's buffer.

Simplifications: the length that the caller gives is that of the buffer; error
codes are numbers, 0 is none.  One call at a time is under way; calls that have
returned before their answer came are counted.
-/

namespace Gensio.Acontrol

/-- `GE_NOTFOUND` (`include/gensio/gensio_err.h:22`). -/
def eNotfound : Nat := 4

/-- `GE_NOTSUP` (`include/gensio/gensio_err.h:20`). -/
def eNotsup : Nat := 2

/-- `GE_INVAL` (`include/gensio/gensio_err.h:21`). -/
def eInval : Nat := 3

/-- `GENSIO_CONTROL_DEPTH_FIRST` is -2 (`include/gensio/gensio_control.h:5`). -/
def depthFirst : Int := -2

/-- The loop of `gensio_acontrol` for the first gensio that handles it
(`gensio.c:621-631`): what each gensio of the stack returns is given; the
result has the gensios asked, by their place. -/
def first : List Nat → Nat → List Nat × Nat
  | [], _ => ([], eNotfound)
  | r :: rs, i =>
    if r ≠ eNotsup then ([i], r)
    else
      let t := first rs (i + 1)
      (i :: t.1, t.2)

/-- `gensio_acontrol` (`gensio.c:604-646`); the stack has a gensio. -/
def acontrol (rets : List Nat) (depth : Int) : List Nat × Nat :=
  if depth = depthFirst then first rets 0
  else if depth < 0 then ([], eInval)
  else match rets[depth.toNat]? with
    | none => ([], eNotfound)
    | some r => ([depth.toNat], r)

/-- One less, for a 64 bit number without sign, as in `datalen - 1`
(`gensio.c:666-667`). -/
def dec (n : Nat) : Nat := if n = 0 then 18446744073709551615 else n - 1

/-- `gensio_acontrol_s_done` (`gensio.c:657-673`): the buffer and the length
afterwards; `none` is a write behind the end of the buffer. -/
def sDone (get : Bool) (buf : List UInt8) (datalen err : Nat) (str : List UInt8) : Option (List UInt8 × Nat) :=
  if err = 0 ∧ get = true then
    let max := dec datalen
    let copysize := if max < str.length then max else str.length
    if copysize ≠ 0 then
      if str.length ≤ buf.length then some (str ++ buf.drop str.length, str.length) else none
    else some (buf, str.length)
  else some (buf, datalen)

/-- A call that waits, with `struct gensio_acontrol_s_data`
(`gensio.c:648-655`). -/
structure Call where
  /-- It may be interrupted. -/
  intr : Bool
  /-- `is_get`. -/
  get : Bool
  /-- `data`. -/
  buf : List UInt8
  /-- `datalen`. -/
  len : Nat
  /-- `err`. -/
  err : Nat := 0
  /-- The answer has come and the waiter is woken. -/
  woken : Bool := false
deriving DecidableEq, Repr

/-- The calls of one thread. -/
structure S where
  cur : Option Call := none
  /-- Waiters that are allocated. -/
  waiters : Nat := 0
  /-- Answers to come to calls that have returned. -/
  late : Nat := 0
deriving DecidableEq, Repr

/-- What happens. -/
inductive Ev where
  /-- A call, and what `gensio_acontrol` returns to it
  (`gensio.c:675-697, 704-726`). -/
  | call (intr get : Bool) (buf : List UInt8) (rv : Nat)
  /-- The answer (`gensio.c:657-673`). -/
  | answer (err : Nat) (str : List UInt8)
  /-- The wait ends (`gensio.c:698-701, 730-732`). -/
  | wake
  /-- The wait is interrupted or times out (`gensio.c:727-729`). -/
  | stop (rv : Nat)
  /-- The answer to a call that has returned. -/
  | lateAnswer
deriving DecidableEq, Repr

/-- The call returns, with the buffer and the length. -/
structure Ret where
  rv : Nat
  buf : List UInt8
  len : Nat
deriving DecidableEq, Repr

/-- One step; what cannot happen changes nothing; `none` is a use of memory
that is not the caller's. -/
def S.step (s : S) : Ev → Option (S × List Ret)
  | .call intr get buf rv =>
    match s.cur with
    | some _ => some (s, [])
    | none =>
      if rv = 0 then some ({ s with cur := some { intr := intr, get := get, buf := buf, len := buf.length }, waiters := s.waiters + 1 }, [])
      else some ({ s with waiters := s.waiters + 1 }, [{ rv := rv, buf := buf, len := buf.length }])
  | .answer err str =>
    match s.cur with
    | none => some (s, [])
    | some c =>
      if c.woken then some (s, [])
      else match sDone c.get c.buf c.len err str with
        | none => none
        | some (b, n) => some ({ s with cur := some { c with buf := b, len := n, err := err, woken := true } }, [])
  | .wake =>
    match s.cur with
    | none => some (s, [])
    | some c =>
      if c.woken then some ({ s with cur := none, waiters := s.waiters - 1 }, [{ rv := c.err, buf := c.buf, len := c.len }])
      else some (s, [])
  | .stop rv =>
    match s.cur with
    | none => some (s, [])
    | some c =>
      if c.intr = true ∧ rv ≠ 0 then
        some ({ s with cur := none, late := if c.woken then s.late else s.late + 1 }, [{ rv := rv, buf := c.buf, len := c.buf.length }])
      else some (s, [])
  | .lateAnswer => if s.late = 0 then some (s, []) else none

/-- Many steps. -/
def S.steps (s : S) : List Ev → Option (S × List Ret)
  | [] => some (s, [])
  | e :: es =>
    match s.step e with
    | none => none
    | some (s1, o) =>
      match s1.steps es with
      | none => none
      | some (s2, o2) => some (s2, o ++ o2)

end Gensio.Acontrol
