/-!
# Accepters, `lib/acc.c`, `lib/acc_gensio.c` and the sockets of `lib/gensio_net.c`

`lib/acc.c` is the upper half of every accepter that has a lower half with sockets (`gensio_net.c`) or a child accepter
(`acc_gensio.c`).  A step is what is done with the lock held; a callback into the user is made without the lock, so it is a place where
a thread waits between two steps and any other step may come.

Simplifications:
* The lower half is closed, open or shutting down.  It calls back after its function has returned, as the ones of `gensio_net.c`
  (:727-:751, :1113-:1121) and `acc_gensio.c` do.  What a child accepter answers is free, except that one that is not closed can not be
  started and one that is not open can not be shut down (`basena_startup`, `basena_shutdown`).  The sockets answer as in
  `gensio_net.c:1079-1141`; opening sockets that are open already fails.
* Connections, `user_data` and `done_data` are left out.  Callbacks are not NULL unless the model says so and are named by numbers.
* `base_gensio_accepter_new_child_start` and `..._end` are one step, since the lock is held between them.
* `log` is not in the code: what the user asked for and what it was told.
-/
namespace Gensio.Acc

/-- `enum basena_state`, `acc.c:24-28`. -/
inductive St | closed | opened | inShutdown
deriving Repr, DecidableEq

/-- The lower half. -/
inductive Low | closed | opened | closing
deriving Repr, DecidableEq

/-- What the user asked for and whether it was accepted, and what it was told. -/
inductive Ev
  | start (ok : Bool) | shutdown (id : Nat) (ok : Bool) | shutdownCb (id : Nat) | enable (id : Option Nat) (ok : Bool) | enableCb (id : Nat)
  | newConn | free
deriving Repr, DecidableEq

/-- `struct basena_data`, `acc.c:30-57`, the lower half, and where threads are.  `gone`: the memory was freed.  `gen` is `cb_en_done`
of `struct gensna_data`, `acc_gensio.c:29`: whether it is not NULL.  `lowEn`: calls that enable or disable the accepting of
connections which the lower half has yet to report.  `opening`: connections whose open has yet to be reported,
`base_gensio_accepter_new_child_end` and `base_gensio_server_open_done`.  `inConn`, `inEn`, `inShut`: threads in a callback of the user,
`acc.c:486`, `acc.c:311` and `acc.c:213-214`. -/
structure A where
  st : St
  ref : Nat
  inCb : Nat
  freed : Bool
  callShut : Bool
  shutDone : Option Nat
  enDone : Option Nat
  low : Low
  gen : Bool
  lowEn : Nat
  opening : Nat
  inConn : Nat
  inEn : Nat
  inShut : Nat
  gone : Bool
  log : List Ev
deriving Repr, DecidableEq

/-- `base_gensio_accepter_alloc`, `acc.c:496-533`. -/
def init : A :=
  { st := .closed, ref := 1, inCb := 0, freed := false, callShut := false, shutDone := none, enDone := none, low := .closed, gen := false, lowEn := 0, opening := 0, inConn := 0, inEn := 0, inShut := 0, gone := false, log := [] }

/-- A line of the log. -/
def A.say (s : A) (e : Ev) : A := { s with log := s.log ++ [e] }

/-- `basena_ref`, `acc.c:181-186`. -/
def ref (s : A) : Option A := if s.ref = 0 then none else some { s with ref := s.ref + 1 }

/-- `basena_deref_and_unlock`, `acc.c:188-198`, with `basena_finish_free`, `acc.c:166-179`.  `leaf`: the lower half is that of
`gensio_net.c`.  `netna_free`, `gensio_net.c:1143-1169`, does not touch the sockets, so the handlers of sockets that are open run with
freed memory. -/
def deref (leaf : Bool) (s : A) : Option A :=
  if s.ref = 0 then none
  else if s.ref = 1 then (if leaf ∧ s.low ≠ .closed then none else some { s with ref := 0, gone := true })
  else some { s with ref := s.ref - 1 }

/-- `basena_finish_shutdown_unlock`, `acc.c:200-218`, up to the callback. -/
def finishShut (s : A) : A :=
  match s.shutDone with
  | some id => { (s.say (.shutdownCb id)) with st := .closed, shutDone := none, inShut := s.inShut + 1 }
  | none => { s with st := .closed, inShut := s.inShut + 1 }

/-- `basena_in_cb`, `acc.c:220-225`. -/
def enterCb (s : A) : Option A := (ref s).map fun s => { s with inCb := s.inCb + 1 }

/-- `basena_leave_cb_unlock`, `acc.c:227-235`.  A count that goes below 0 is a fault. -/
def leaveCb (leaf : Bool) (s : A) : Option A :=
  if s.inCb = 0 then none
  else
    let s := { s with inCb := s.inCb - 1 }
    if s.inCb = 0 ∧ s.callShut then some (finishShut s) else deref leaf s

/-- The lower half is asked to shut down, `acc.c:106-111`, and answers `lerr`: whether it accepts, and what it is then. -/
def lowShutdown (s : A) (lerr : Nat) : Bool := lerr = 0 ∧ s.low = .opened

/-- The steps.  `lerr` is the answer of the lower half if it is asked. -/
inductive Op
  /-- `basena_startup`, `acc.c:237-256`. -/
  | startup (lerr : Nat)
  /-- `basena_shutdown`, `acc.c:273-295`. -/
  | shutdown (id lerr : Nat)
  /-- The lower half reports its shutdown: `basena_child_shutdown_done`, `acc.c:258-271`. -/
  | lowShut
  /-- `acc.c:216-217`, after the callback. -/
  | shutCont
  /-- `basena_set_accept_callback_enable`, `acc.c:317-340`. -/
  | enable (done : Option Nat) (lerr : Nat)
  /-- The lower half reports the enable: `netna_cb_en_done`, `gensio_net.c:1113-1121`, or `gensna_cb_en_done`,
  `acc_gensio.c:59-65`, and `basena_cb_en_done`, `acc.c:297-311`. -/
  | lowEn
  /-- `acc.c:313-314`, after the callback. -/
  | enCont
  /-- A connection comes in, `acc.c:444-468`, with the error that stops it. -/
  | newChild (err : Nat)
  /-- The open of a connection is reported: `base_gensio_server_open_done`, `acc.c:470-494`. -/
  | openDone (err : Nat)
  /-- `acc.c:487-493`, after the callback. -/
  | connCont
  /-- `basena_free`, `acc.c:342-374`. -/
  | free (lerr : Nat)
deriving Repr, DecidableEq

/-- When a step may come: the user does not use an accepter it has freed; the lower half reports what it has to; connections come from a
lower half that is not closed; the lower half of `gensio_net.c` refuses no shutdown and no enable for reasons of its own. -/
def can (leaf : Bool) (s : A) : Op → Bool
  | .startup _ => !s.freed
  | .shutdown _ lerr => !s.freed && (!leaf || lerr = 0)
  | .lowShut => s.low = .closing
  | .shutCont => s.inShut ≠ 0
  | .enable _ lerr => !s.freed && (!leaf || lerr = 0)
  | .lowEn => s.lowEn ≠ 0
  | .enCont => s.inEn ≠ 0
  | .newChild _ => !s.gone && s.low ≠ .closed
  | .openDone _ => s.opening ≠ 0
  | .connCont => s.inConn ≠ 0
  | .free lerr => !s.freed && (!leaf || lerr = 0)

/-- `basena_shutdown`, `acc.c:273-295`. -/
def shutdown (s : A) (id lerr : Nat) : Option A :=
  if s.st = .opened then
    if lowShutdown s lerr then
      (ref { s with shutDone := some id, low := .closing }).map fun s => { (s.say (.shutdown id true)) with st := .inShutdown }
    else some { (s.say (.shutdown id false)) with shutDone := some id }
  else some (s.say (.shutdown id false))

/-- `basena_set_accept_callback_enable`, `acc.c:317-340`, with `netna_set_accept_callback_enable`, `gensio_net.c:1123-1141`, or
`gensna_set_accept_callback_enable`, `acc_gensio.c:67-80`.  `cb_en_done` of `gensio_net.c` is not NULL if and only if an enable is to be
reported. -/
def enable (leaf : Bool) (s : A) (done : Option Nat) (lerr : Nat) : Option A :=
  if s.st ≠ .opened ∨ (done.isSome ∧ s.enDone.isSome) then some (s.say (.enable done false))
  else
    let s := { s with enDone := if done.isSome then done else s.enDone, gen := if leaf then s.gen else done.isSome }
    if lerr ≠ 0 ∨ (leaf ∧ s.lowEn ≠ 0) then some (s.say (.enable done false))
    else if done.isSome then (enterCb (s.say (.enable done true))).map fun s => { s with lowEn := s.lowEn + 1 }
    else some (s.say (.enable done true))

/-- `basena_free`, `acc.c:342-374`. -/
def free (leaf : Bool) (s : A) (lerr : Nat) : Option A :=
  if s.freed then none
  else
    let s := { (s.say .free) with freed := true }
    match s.st with
    | .closed => deref leaf s
    | .inShutdown => deref leaf { s with shutDone := none }
    | .opened =>
      if lowShutdown s lerr then (ref { s with low := .closing }).bind fun s => deref leaf { s with st := .inShutdown }
      else deref leaf { s with st := .closed }

/-- A step; `none` is a failed assertion, a call through a NULL pointer, a count below 0 or a use of freed memory. -/
def step (leaf : Bool) (s : A) (op : Op) : Option A :=
  if s.gone then none
  else match op with
  | .startup lerr =>
    if s.freed then none
    else if s.st ≠ .closed then some (s.say (.start false))
    else if lerr ≠ 0 ∨ s.low ≠ .closed then some { (s.say (.start false)) with shutDone := none }
    else some { (s.say (.start true)) with shutDone := none, st := .opened, low := .opened }
  | .shutdown id lerr => shutdown s id lerr
  | .lowShut =>
    if s.inCb ≠ 0 then deref leaf { s with low := .closed, callShut := true } else some (finishShut { s with low := .closed })
  | .shutCont => deref leaf { s with inShut := s.inShut - 1 }
  | .enable done lerr => enable leaf s done lerr
  | .lowEn =>
    if !leaf ∧ !s.gen then none
    else
      match s.enDone with
      | none => none
      | some id => some { (s.say (.enableCb id)) with lowEn := s.lowEn - 1, enDone := none, inEn := s.inEn + 1 }
  | .enCont => leaveCb leaf { s with inEn := s.inEn - 1 }
  | .newChild err =>
    if s.st ≠ .opened ∨ err ≠ 0 then some s else (enterCb s).map fun s => { s with opening := s.opening + 1 }
  | .openDone err =>
    let s := { s with opening := s.opening - 1 }
    if err ≠ 0 then leaveCb leaf s
    else if s.st = .opened then some { (s.say .newConn) with inCb := s.inCb + 1, inConn := s.inConn + 1 }
    else leaveCb leaf s
  | .connCont => if s.inCb = 0 then none else leaveCb leaf { s with inConn := s.inConn - 1, inCb := s.inCb - 1 }
  | .free lerr => free leaf s lerr

/-- The result of a list of steps: a fault, a step that may not come, or the state after it. -/
inductive Res | fault | cannot | ok (s : A)
deriving Repr, DecidableEq

/-- One step after the other. -/
def exec (leaf : Bool) : A → List Op → Res
  | s, [] => .ok s
  | s, op :: ops => if can leaf s op then (match step leaf s op with | some s' => exec leaf s' ops | none => .fault) else .cannot

/-- The states after some steps allowed by `P`. -/
inductive Reach (leaf : Bool) (P : A → Op → Prop) : A → Prop
  | init : Reach leaf P init
  | step {s s' : A} (op : Op) : Reach leaf P s → can leaf s op = true → P s op → step leaf s op = some s' → Reach leaf P s'

/-! ## The sockets of `gensio_net.c` -/

/-- `acceptfds`, `nr_acceptfds` and `nr_accept_close_waiting` of `struct netna_data`, `gensio_net.c:676-718`.  An entry of `fds` is
whether its `iod` is not NULL; `fds` is `none` when `acceptfds` is NULL.  `clearing`: the indexes of the sockets whose
`clear_fd_handlers` was called and not reported.  `told`: how often `shutdown_done` was called. -/
structure N where
  fds : Option (List Bool)
  nr : Nat
  waiting : Nat
  clearing : List Nat
  told : Nat
deriving Repr, DecidableEq

/-- `netna_startup`, `gensio_net.c:1079-1092`, when `n` sockets can be opened. -/
def netStartup (s : N) (n : Nat) : N := { s with fds := some (List.replicate n true), nr := n }

/-- `netna_shutdown`, `gensio_net.c:1094-1111`.  `acceptfds[i]` of a NULL pointer is a fault. -/
def netShutdown (s : N) : Option N :=
  match s.fds with
  | none => if s.nr = 0 then some { s with waiting := 0 } else none
  | some _ => some { s with waiting := s.nr, clearing := List.range s.nr }

/-- `netna_fd_cleared`, `gensio_net.c:727-751`, for the socket of the index `i`. -/
def netCleared (s : N) (i : Nat) : Option N :=
  match s.fds with
  | none => none
  | some l =>
    if s.waiting = 0 ∨ l[i]? ≠ some true then none
    else
      let s := { s with fds := some (l.set i false), waiting := s.waiting - 1, clearing := s.clearing.erase i }
      some (if s.waiting = 0 then { s with fds := none, told := s.told + 1 } else s)

/-- `netna_control_laddr` and `netna_control_lport`, `gensio_net.c:1252-1307`, for the socket of the index `i`: an error, or the socket
that is asked.  `none` is a use of a NULL pointer: of `acceptfds`, or (`laddr`) of the `iod`. -/
def netControl (laddr : Bool) (s : N) (i : Nat) : Option (Option Nat) :=
  if s.nr = 0 ∨ s.nr ≤ i then some none
  else
    match s.fds with
    | none => none
    | some l => if laddr ∧ l[i]? ≠ some true then none else some (some i)

/-- `netna_disable`, `gensio_net.c:1343-1356`. -/
def netDisable (s : N) : Option N :=
  match s.fds with
  | none => if s.nr = 0 then some s else none
  | some l => some { s with fds := some (l.map fun _ => false), clearing := [] }

/-- The steps of the sockets: `basena_startup` starts an accepter that is closed, and `basena_shutdown` shuts down one that is open. -/
inductive NReach : N → Prop
  | init : NReach ⟨none, 0, 0, [], 0⟩
  | startup {s : N} (n : Nat) : NReach s → s.fds = none → 0 < n → NReach (netStartup s n)
  | shutdown {s s' : N} : NReach s → s.waiting = 0 → s.fds.isSome → netShutdown s = some s' → NReach s'
  | cleared {s s' : N} (i : Nat) : NReach s → i ∈ s.clearing → netCleared s i = some s' → NReach s'

end Gensio.Acc
