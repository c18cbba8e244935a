/-!
# The modem state of the serial device gensio (`lib/sergensio_serialdev.c:694-793`)

`serialdev_timeout` looks at the modem lines once a second and reports them;
`sterm_modemstate_mask` sets the mask, with a callback that is called at the
next look.  Steps are stretches of code between which other threads may run.

Simplifications: the timer is running or not; when it runs it may fire.
Callbacks of the user are numbers.  The lines are the bits 4 to 7 of a number,
as `gensio_unix_termios_control` gives them (`os_osops.c:3378-3397`).
-/

namespace Gensio.SerModem

/-- Where the run of `serialdev_timeout` is that has set
`handling_modemstate`. -/
inductive Ph where
  | idle
  /-- Before the look at the lines (`sergensio_serialdev.c:710`). -/
  | reading
  /-- The callbacks that are left to call, the state, and if it will be sent
  (`sergensio_serialdev.c:727-743`). -/
  | calls (cs : List Nat) (m : Nat) (force : Bool)
  /-- Before `out_restart` (`sergensio_serialdev.c:745`). -/
  | restart
  /-- Before `handling_modemstate` is cleared (`sergensio_serialdev.c:751`). -/
  | leaving
deriving DecidableEq, Repr

/-- `struct sterm_data` (`sergensio_serialdev.c:103-172`), as far as it matters
here. -/
structure S where
  /-- `open`. -/
  opn : Bool := false
  /-- `modemstate_mask`. -/
  mask : Nat := 0
  /-- `last_modemstate`. -/
  last : Nat := 0
  /-- `sent_first_modemstate`. -/
  sent : Bool := false
  /-- `modemstate_cbs`. -/
  cbs : List Nat := []
  /-- The timer runs. -/
  timer : Bool := false
  ph : Ph := .idle
deriving DecidableEq, Repr

/-- What is seen. -/
inductive Out where
  /-- The callback of a mask is called. -/
  | told (k : Nat)
  /-- `GENSIO_EVENT_SER_MODEMSTATE`. -/
  | event (m : Nat)
deriving DecidableEq, Repr

/-- The state with the bits for what changed (`sergensio_serialdev.c:717`). -/
def changed (m last : Nat) : Nat := m ||| ((m ^^^ last) >>> 4)

/-- `sterm_modemstate_mask` (`sergensio_serialdev.c:756-793`). -/
def S.setMask (s : S) (v : Nat) (k : Option Nat) : S :=
  { s with mask := v, sent := false, cbs := s.cbs ++ k.toList, timer := true }

/-- What happens. -/
inductive Ev where
  | setMask (v : Nat) (k : Option Nat)
  /-- `sterm_sub_open` of a terminal, when it has succeeded
  (`sergensio_serialdev.c:1160-1166`). -/
  | «open»
  /-- `sterm_check_close_drain` when a close starts
  (`sergensio_serialdev.c:946-955`). -/
  | close
  /-- The timer fires: `serialdev_timeout` up to the look
  (`sergensio_serialdev.c:702-708`). -/
  | fire
  /-- The look at the lines (`sergensio_serialdev.c:710-725`); `none` is an
  error. -/
  | look (m : Option Nat)
  /-- The next callback, or the event (`sergensio_serialdev.c:727-743`). -/
  | next
  /-- The timer is started again (`sergensio_serialdev.c:745-749`). -/
  | done
  /-- `handling_modemstate` is cleared (`sergensio_serialdev.c:751-753`). -/
  | leave
deriving DecidableEq, Repr

/-- One step; what cannot happen changes nothing. -/
def S.step (s : S) : Ev → S × List Out
  | .setMask v k => (s.setMask v k, [])
  | .open => (S.setMask { s with opn := true, sent := false } 255 none, [])
  | .close => ({ s with opn := false, timer := false }, [])
  | .fire =>
    if s.timer then
      if s.ph ≠ .idle ∨ s.opn = false then ({ s with timer := false }, [])
      else ({ s with timer := false, ph := .reading }, [])
    else (s, [])
  | .look v =>
    if s.ph = .reading then
      match v with
      | none => ({ s with ph := .restart }, [])
      | some m =>
        let m := changed m s.last
        ({ s with last := m &&& s.mask, sent := true, cbs := [], ph := .calls s.cbs m (!s.sent) }, [])
    else (s, [])
  | .next =>
    match s.ph with
    | .calls (c :: cs) m f => ({ s with ph := .calls cs m f }, [.told c])
    | .calls [] m f => ({ s with ph := .restart }, if f ∨ m &&& 15 ≠ 0 then [.event m] else [])
    | _ => (s, [])
  | .done =>
    if s.ph = .restart then ({ s with timer := s.timer || s.mask != 0, ph := .leaving }, [])
    else (s, [])
  | .leave => if s.ph = .leaving then ({ s with ph := .idle }, []) else (s, [])

/-- Many steps. -/
def S.steps (s : S) : List Ev → S × List Out
  | [] => (s, [])
  | e :: es =>
    let r := s.step e
    let t := r.1.steps es
    (t.1, r.2 ++ t.2)

/-- After the allocation. -/
def init : S := {}

end Gensio.SerModem
