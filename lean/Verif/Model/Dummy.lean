/-!
# The dummy accepter (`lib/gensio_dummy.c`)

Every step is one stretch of code run with `nadata->lock` held.  Callbacks of
the user are called without the lock, so that anything may happen before they
return; a second run of the deferred operation may start while a first one is
in a callback (`deferred_pending` is cleared before, `gensio_dummy.c:107`).
`none` is a failed assertion.  Simplification: callbacks of the user are
numbers, and a call that gives one gives a new one.
-/

namespace Gensio.Dummy

/-- `enum dummyna_state` (`gensio_dummy.c:18-22`). -/
inductive St where
  | disabled
  | enabled
  | inShutdown
deriving DecidableEq, Repr

/-- Where a run of `dummyna_do_deferred` is that has called the user. -/
inductive Fr where
  /-- In `enabled_done` (`gensio_dummy.c:115`). -/
  | enable
  /-- In `shutdown_done` (`gensio_dummy.c:126`). -/
  | shut
deriving DecidableEq, Repr

/-- `struct dummyna_data` (`gensio_dummy.c:24-40`). -/
structure S where
  st : St := .disabled
  /-- `deferred_pending`, and the runner is queued. -/
  pend : Bool := false
  /-- `shutdown_done`. -/
  sdone : Option Nat := none
  /-- `enabled_done`. -/
  edone : Option Nat := none
  /-- `refcount`. -/
  ref : Nat := 1
  /-- The runs that are in a callback. -/
  frs : List Fr := []
  /-- `dummyna_finish_free` was called. -/
  freed : Bool := false
deriving DecidableEq, Repr

def GE_INUSE : Nat := 10

/-- What is seen. -/
inductive Out where
  | ret (e : Nat)
  /-- `shutdown_done` is called. -/
  | shut (k : Nat)
  /-- `enabled_done` is called. -/
  | enab (k : Nat)
  | freed
deriving DecidableEq, Repr

/-- `dummyna_deref_and_unlock` (`gensio_dummy.c:74-85`). -/
def S.deref (s : S) : Option (S × List Out) :=
  if s.ref = 0 then none
  else if s.ref = 1 then some ({ s with ref := 0, freed := true }, [.freed])
  else some ({ s with ref := s.ref - 1 }, [])

/-- `dummyna_startup` (`gensio_dummy.c:87-99`): the state is set in any case. -/
def S.startup (s : S) : S × List Out :=
  ({ s with st := .enabled }, [.ret (if s.st = .disabled then 0 else GE_INUSE)])

/-- `dummyna_deferred_op` with `dummyna_ref` (`gensio_dummy.c:67-72, 133-141`). -/
def S.op (s : S) : Option S :=
  if s.pend then some s
  else if s.ref = 0 then none
  else some { s with ref := s.ref + 1, pend := true }

/-- `dummyna_shutdown` (`gensio_dummy.c:143-163`); `none` is a NULL callback. -/
def S.shutdown (s : S) (k : Option Nat) : Option (S × List Out) :=
  if s.st ≠ .enabled then some (s, [.ret GE_INUSE])
  else
    match S.op { s with st := .inShutdown, sdone := k } with
    | none => none
    | some s => some (s, [.ret 0])

/-- `dummyna_set_accept_callback_enable` (`gensio_dummy.c:165-185`). -/
def S.enable (s : S) (k : Option Nat) : Option (S × List Out) :=
  if s.edone.isSome then some (s, [.ret GE_INUSE])
  else if k.isSome then
    match S.op { s with edone := k } with
    | none => none
    | some s => some (s, [.ret 0])
  else some (s, [.ret 0])

/-- `dummyna_do_deferred` (`gensio_dummy.c:119-131`) from `enabled_done` on. -/
def S.tail (s : S) : Option (S × List Out) :=
  if s.st = .inShutdown then
    match s.sdone with
    | some k => some ({ s with st := .disabled, frs := .shut :: s.frs }, [.shut k])
    | none => S.deref { s with st := .disabled }
  else s.deref

/-- `dummyna_do_deferred` (`gensio_dummy.c:101-131`) until it calls the user. -/
def S.run (s : S) : Option (S × List Out) :=
  match s.edone with
  | some k => some ({ s with pend := false, edone := none, frs := .enable :: s.frs }, [.enab k])
  | none => S.tail { s with pend := false }

/-- A callback of a run returned. -/
def S.ret (s : S) (f : Fr) : Option (S × List Out) :=
  match f with
  | .enable => S.tail { s with frs := s.frs.erase f }
  | .shut => S.deref { s with frs := s.frs.erase f }

/-- What happens. -/
inductive Ev where
  | startup
  | shutdown (k : Option Nat)
  | enable (k : Option Nat)
  | free
  | run
  | ret (f : Fr)
deriving DecidableEq, Repr

/-- One step; steps of the system that can not happen now change nothing.
`free` is `dummyna_free` (`gensio_dummy.c:187-194`). -/
def S.step (s : S) : Ev → Option (S × List Out)
  | .startup => some s.startup
  | .shutdown k => s.shutdown k
  | .enable k => s.enable k
  | .free => s.deref
  | .run => if s.pend then s.run else some (s, [])
  | .ret f => if f ∈ s.frs then s.ret f else some (s, [])

/-- Several steps. -/
def S.steps (s : S) : List Ev → Option (S × List Out)
  | [] => some (s, [])
  | e :: es =>
    match s.step e with
    | none => none
    | some (s', o) =>
      match S.steps s' es with
      | none => none
      | some (s'', o') => some (s'', o ++ o')

/-- A new accepter. -/
def init : S := {}

end Gensio.Dummy
