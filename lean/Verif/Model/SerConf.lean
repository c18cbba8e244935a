/-!
# Requests to the serial device gensio and its close
(`lib/sergensio_serialdev.c:241-405, 935-1011, 1186-1208`)

`serconf_set_get` queues a request whose answer is given by a runner;
`sterm_check_close_drain` is called again and again while the gensio closes,
until nothing is left to do and the output has drained.

Simplifications: requests are numbers; what the device answers, and the change
of a setting, are left out.  The lock is held from one callback to the next, so
that these stretches are single steps.
-/

namespace Gensio.SerConf

/-- The runner of the deferred operation (`sergensio_serialdev.c:241-256`). -/
inductive Rn where
  | idle
  | queued
  /-- In the callback of a request (`sergensio_serialdev.c:305-306`). -/
  | cb (k : Nat)
deriving DecidableEq, Repr

/-- `struct sterm_data` (`sergensio_serialdev.c:103-172`), as far as it matters
here. -/
structure S where
  /-- `open`. -/
  opn : Bool := false
  /-- `iod` is not NULL. -/
  iod : Bool := false
  /-- `termio_q`. -/
  q : List Nat := []
  /-- `deferred_op_pending`. -/
  pend : Bool := false
  rn : Rn := .idle
  /-- The memory is given back. -/
  freed : Bool := false
deriving DecidableEq, Repr

/-- What is seen. -/
inductive Out where
  /-- A request is accepted. -/
  | accepted (k : Nat)
  /-- A request is refused. -/
  | refused
  /-- The callback of a request is called. -/
  | answered (k : Nat)
  /-- `sterm_check_close_drain` says that the close has to wait, or is over. -/
  | wait
  | over
deriving DecidableEq, Repr

/-- `sterm_start_deferred_op` (`sergensio_serialdev.c:258-265`). -/
def S.startOp (s : S) : S :=
  if s.pend then s else { s with pend := true, rn := .queued }

/-- `serconf_set_get` with a callback (`sergensio_serialdev.c:324-405`); `fail`
is a value that is refused or a control that fails (`:365-380`). -/
def S.request (s : S) (k : Nat) (fail : Bool) : S × List Out :=
  if s.opn = false ∨ fail = true then (s, [.refused])
  else if s.q = [] then (S.startOp { s with q := [k] }, [.accepted k])
  else ({ s with q := s.q ++ [k] }, [.accepted k])

/-- The loops of `sterm_deferred_op` and `serconf_process` up to the next
callback (`sergensio_serialdev.c:246-255, 295-304`); `none` is a control of a
descriptor that is not there. -/
def S.loop (s : S) : Option (S × List Out) :=
  match s.q with
  | [] => some ({ s with pend := false, rn := .idle }, [])
  | k :: ks => if s.iod then some ({ s with q := ks, rn := .cb k }, [.answered k]) else none

/-- What happens. -/
inductive Ev where
  | request (k : Nat) (fail : Bool)
  /-- The device is opened (`sterm_sub_open`, `sergensio_serialdev.c:1160-1163`);
  the lower layer does that when it is closed. -/
  | «open»
  /-- The close starts (`sergensio_serialdev.c:946-955`). -/
  | close
  /-- The close looks if it is over (`sergensio_serialdev.c:957-1010`), with
  the output drained and the timer stopped. -/
  | check
  /-- The runner runs. -/
  | run
  /-- The callback of a request returns (`sergensio_serialdev.c:307-308`). -/
  | ret
  /-- `sterm_free` (`sergensio_serialdev.c:1186-1208`), when the close is
  over. -/
  | free
deriving DecidableEq, Repr

/-- One step; what cannot happen changes nothing; `none` is a use of memory
that was given back or of a descriptor that is not there. -/
def S.step (s : S) : Ev → Option (S × List Out)
  | .request k fail => if s.freed then some (s, []) else some (s.request k fail)
  | .open => if s.freed ∨ s.iod then some (s, []) else some ({ s with opn := true, iod := true }, [])
  | .close => if s.freed then some (s, []) else some ({ s with opn := false }, [])
  | .check =>
    if s.freed = true ∨ s.opn = true ∨ s.iod = false then some (s, [])
    else if s.q ≠ [] then some (s, [.wait])
    else some ({ s with iod := false }, [.over])
  | .run =>
    if s.rn = .queued then
      if s.freed then none else s.loop
    else some (s, [])
  | .ret =>
    match s.rn with
    | .cb _ => if s.freed then none else s.loop
    | _ => some (s, [])
  | .free => if s.iod then some (s, []) else some ({ s with freed := true, q := [] }, [])

/-- Many steps. -/
def S.steps (s : S) : List Ev → Option (S × List Out)
  | [] => some (s, [])
  | e :: es =>
    match s.step e with
    | none => none
    | some (s1, o) =>
      match s1.steps es with
      | none => none
      | some (s2, o2) => some (s2, o ++ o2)

/-- After the allocation. -/
def init : S := {}

/-! ## Draining -/

/-- The part of `struct sterm_data` for the drain
(`sergensio_serialdev.c:114-119`); the times are in units of 10 ms, below 0 is
off. -/
structure D where
  /-- `drain_time`. -/
  total : Int
  /-- `char_drain_wait`. -/
  char : Int
  /-- `close_timeouts_left`. -/
  left : Int := 0
  /-- `char_timeouts_left`. -/
  cleft : Int := 0
  /-- `last_close_outq_count`. -/
  last : Nat := 0
deriving DecidableEq, Repr

/-- The close starts (`sergensio_serialdev.c:953`). -/
def D.start (d : D) : D := { d with last := 0 }

/-- The look at the output (`sergensio_serialdev.c:969-996`): `none` is that
the close is over. -/
def D.check (d : D) (count : Nat) : Option D :=
  if count = 0 then none
  else
    let left := if d.last = 0 then d.total else d.left
    if left = 0 then none
    else
      let left := if 0 ≤ left then left - 1 else left
      let new := d.last = 0 ∨ count < d.last
      let cleft := if new then d.char else d.cleft
      let last := if new then count else d.last
      if cleft = 0 then none
      else some { d with left := left, cleft := if 0 ≤ cleft then cleft - 1 else cleft, last := last }

/-- Looks one after the other, until the close is over. -/
def D.checks (d : D) : List Nat → Option D
  | [] => some d
  | c :: cs =>
    match d.check c with
    | none => none
    | some d => d.checks cs

end Gensio.SerConf
