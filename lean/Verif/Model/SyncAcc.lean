/-!
# Synchronous accepts, `lib/gensio.c:317-346`, `:1020-1047` and `:3649-3691`

Threads call `gensio_acc_accept_s` on one accepter that has been given to `gensio_acc_set_sync` and started.  A step is what
is done with `acc->lock` held.

Simplifications: a connection and a thread are numbers; a thread makes one call at a time; its waiter can be allocated;
`wait_intr` may return at any time.
-/

namespace Gensio.SyncAcc

/-- Where a thread is: not in a call, waiting with `wa.queued` set, or waiting with `wa.queued` cleared. -/
inductive St | idle | waiting | woken
  deriving DecidableEq

/-- The parts of `struct gensio_accepter`. -/
structure Acc where
  enabled : Bool
  sync : Bool
  ios : List Nat
  accs : List Nat
  st : Nat → St

/-- What happens. -/
inductive Act
  /-- A new connection, `GENSIO_ACC_EVENT_NEW_CONNECTION`. -/
  | conn (io : Nat)
  /-- Thread `i` calls `gensio_acc_accept_s`. -/
  | accept (i : Nat)
  /-- Its wait is over; `rv` is 0, also when the time is up, or `GE_INTERRUPTED`. -/
  | wake (i rv : Nat)
  | shutdown
  deriving DecidableEq

/-- What can be seen from outside. -/
inductive Ev
  | silent
  /-- The call returns; with a connection when the error number is 0. -/
  | ret (rv : Nat) (io : Option Nat)
  /-- Connections are freed. -/
  | freed (ios : List Nat)
  /-- The connection is given to the callback of the user. -/
  | other
  deriving DecidableEq

def eTimedOut : Nat := 14
def eLocalClosed : Nat := 35
def eInterrupted : Nat := 33

def Acc.set (s : Acc) (i : Nat) (v : St) : Acc := { s with st := fun j => if j = i then v else s.st j }

/-- `gensio_acc_cb`, :317-346. -/
def Acc.conn (s : Acc) (io : Nat) : Acc × Ev :=
  if s.sync = false then (s, .other)
  else if s.enabled = false then (s, .freed [io])
  else
    match s.accs with
    | [] => ({ s with ios := s.ios ++ [io] }, .silent)
    | i :: rest => ({ s with ios := s.ios ++ [io], accs := rest }.set i .woken, .silent)

/-- `i_gensio_acc_accept_s`, :3649-3667, to the wait or the end. -/
def Acc.accept (s : Acc) (i : Nat) : Acc × Ev :=
  match s.ios with
  | io :: rest => ({ s with ios := rest }, .ret 0 (some io))
  | [] => ({ s with accs := s.accs ++ [i] }.set i .waiting, .silent)

/-- `i_gensio_acc_accept_s` after the wait, :3669-3690. -/
def Acc.wake (s : Acc) (i rv : Nat) : Acc × Ev :=
  if s.st i = .waiting then ({ s with accs := s.accs.erase i }.set i .idle, .ret eTimedOut none)
  else
    match s.ios with
    | [] => (s.set i .idle, .ret eLocalClosed none)
    | io :: rest => if rv = 0 then ({ s with ios := rest }.set i .idle, .ret 0 (some io)) else (s.set i .idle, .ret rv none)

/-- `gensio_acc_shutdown`, :1020-1044. -/
def Acc.shutdown (s : Acc) : Acc × Ev :=
  ({ enabled := false, sync := false, ios := [], accs := [], st := fun j => if j ∈ s.accs then .woken else s.st j },
    .freed s.ios)

/-- One step; `none` when it cannot happen. -/
def Acc.step (s : Acc) : Act → Option (Acc × Ev)
  | .conn io => some (s.conn io)
  | .accept i => if s.st i = .idle then some (s.accept i) else none
  | .wake i rv => if s.st i = .idle then none else some (s.wake i rv)
  | .shutdown => some s.shutdown

/-- A synchronous accepter that has been started. -/
def Acc.init : Acc := { enabled := true, sync := true, ios := [], accs := [], st := fun _ => .idle }

abbrev Hist := List (Act × Ev)

inductive Run : Acc → Hist → Prop
  | nil : Run Acc.init []
  | next {s t : Acc} {h : Hist} {a : Act} {e : Ev} : Run s h → s.step a = some (t, e) → Run t (h ++ [(a, e)])

end Gensio.SyncAcc
