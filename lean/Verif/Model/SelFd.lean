/-!
# Handlers of a file descriptor, `lib/os_unix_selector.c`

One descriptor of a selector that uses epoll, with any number of threads in `sel_select`.  The state is protected by
`sel->fd_lock`; a step is what a thread does from taking the lock to giving it up.  Without the lock are: the handlers and the
cleared callback of the user, the wait in `epoll_pwait`, and the end of `sel_set_fd_handlers` (:669-676), whose two looks at
the old registration are steps of their own.

Simplifications:
* Other descriptors are left out, except that they may change `fd_del_count` at any time.
* All three handlers of a registration are given; whether there is a cleared callback is an argument.
* A registration, `fd_state_t`, is a number, counted up; so is the `data` of the user.  The local `olddata` of
  `sel_set_fd_handlers` is put into the old registration at once.
* `epoll_ctl` fails when the descriptor is added twice or is changed or deleted without being there; the code then calls
  `assert(0)` (:490-496).
* The runner of a registration (`sel_run`, see `Verif.Model.Selector`) is a flag that says it is queued.
* `maxfd` is left out, it is not used with epoll.  Allocation succeeds.
* The result `none` is a failed assertion or a use of released memory.
-/

namespace Gensio.SelFd

/-- `fd_state_t`, :87-95.  `done` says that `done` is not NULL, `data` is `done_cbdata`, `queued` that the runner is queued. -/
structure Reg where
  deleted : Bool := false
  use : Nat := 0
  done : Bool := false
  data : Option Nat := none
  queued : Bool := false
  freed : Bool := false
  deriving DecidableEq, Repr

/-- What `epoll_pwait` reports. -/
structure Evs where
  inp : Bool := false
  out : Bool := false
  pri : Bool := false
  hup : Bool := false
  err : Bool := false
  deriving DecidableEq, Repr

/-- Where a thread is. -/
inductive Pc
  /-- In `sel_set_fd_handlers` with the old registration `o`, before :670. -/
  | setA (o : Nat)
  /-- Before :671. -/
  | setB (o : Nat)
  /-- In `epoll_pwait`, with `entry_fd_del_count`, :1407. -/
  | wait (c : Nat)
  /-- With an event, before :1411. -/
  | got (c : Nat) (e : Evs)
  /-- In handler number `k` (read, write, except) of registration `i`, called with data `d`, :1229. -/
  | inH (i : Nat) (d : Option Nat) (e : Evs) (k : Nat)
  /-- In the cleared callback, :1236. -/
  | inDone (i : Nat) (e : Evs) (k : Nat)
  deriving DecidableEq, Repr

/-- History. -/
inductive TEv
  /-- `sel_set_fd_handlers` made registration `i`, with a cleared callback or not. -/
  | set (i : Nat) (done : Bool)
  /-- Registration `i` was cleared, or replaced by a new one; the flag says that this is to be reported. -/
  | gone (i : Nat) (rpt : Bool)
  /-- A handler of registration `i` is called. -/
  | start (i : Nat)
  | ret (i : Nat)
  /-- The cleared callback of registration `i` is called with data `d`. -/
  | done (i : Nat) (d : Option Nat)
  deriving DecidableEq, Repr

/-- `fd_control_t`, :98-128, the registrations, and the state of the descriptor in epoll. -/
structure St where
  /-- `fdc->state`. -/
  cur : Option Nat := none
  /-- `fdc->data`. -/
  data : Option Nat := none
  rd : Bool := false
  wr : Bool := false
  ex : Bool := false
  /-- `saved_events` is not 0. -/
  saved : Bool := false
  /-- `fd_del_count`. -/
  del : Nat := 0
  regs : Nat → Reg := fun _ => {}
  /-- Number of registrations made. -/
  n : Nat := 0
  /-- The descriptor is in the epoll set. -/
  added : Bool := false
  /-- It has not reported since it was last added or changed (`EPOLLONESHOT`). -/
  armed : Bool := false
  /-- What it is to report. -/
  mRd : Bool := false
  mWr : Bool := false
  mEx : Bool := false
  th : List Pc := []
  /-- Newest first. -/
  tr : List TEv := []

/-- Change one registration. -/
def St.upd (s : St) (i : Nat) (f : Reg → Reg) : St := { s with regs := fun j => if j = i then f (s.regs j) else s.regs j }

/-- The thread goes on at `p`. -/
def park (p : Pc) (s : St) : St := { s with th := p :: s.th }

inductive Op | add | mod | del
  deriving DecidableEq

/-- `epoll_ctl` with the given events, :492-496. -/
def ctl (op : Op) (r w e : Bool) (s : St) : Option St :=
  match op with
  | .add => if s.added then none else some { s with added := true, armed := true, mRd := r, mWr := w, mEx := e }
  | .mod => if s.added then some { s with armed := true, mRd := r, mWr := w, mEx := e } else none
  | .del => if s.added then some { s with added := false, armed := false, mRd := false, mWr := false, mEx := false } else none

/-- `sel_update_fd`, :459-498. -/
def updateFd (op : Op) (s : St) : Option St :=
  if s.saved then
    if op = .del then some s
    else if !s.rd && !s.ex then some s
    else ctl .add s.rd false s.ex { s with saved := false }
  else ctl op s.rd s.wr s.ex s

/-- `sel_set_fd_handlers`, :600-678, to giving up the lock, with `done` for a cleared callback. -/
def set (done : Bool) (s : St) : Option St :=
  let s' := { s.upd s.n (fun _ => { done := done }) with n := s.n + 1, cur := some s.n, data := some s.n }
  match s.cur with
  | none => updateFd .add { s' with tr := .set s.n done :: s.tr }
  | some o => do
    let s' ← updateFd .mod { s' with saved := false, del := s.del + 1, tr := .set s.n done :: .gone o true :: s.tr,
                                     regs := fun j => if j = o then { s'.regs o with data := s.data } else s'.regs j }
    some (park (.setA o) s')

/-- The end of `sel_set_fd_handlers`, :670. -/
def setA (o : Nat) (s : St) : Option St :=
  if (s.regs o).freed then none else some (park (.setB o) (s.upd o (fun r => { r with deleted := true })))

/-- The end of `sel_set_fd_handlers`, :671-675.  `sel_run` of a runner that is queued already changes nothing. -/
def setB (o : Nat) (s : St) : Option St :=
  if (s.regs o).freed then none
  else if (s.regs o).use = 0 then some (s.upd o (fun r => { r with queued := true }))
  else some s

/-- The registration is deleted by `i_sel_clear_fd_handler`, :716-725. -/
def clearReg (rpt : Bool) (o : Nat) (s : St) : Option St :=
  if (s.regs o).freed then none
  else
    let r := s.regs o
    some (s.upd o (fun _ => { r with deleted := true, done := r.done && rpt, data := s.data,
                                     queued := r.queued || r.use = 0 }))

/-- `init_fd`, :445-456. -/
def initFd (s : St) : St := { s with cur := none, data := none, rd := false, wr := false, ex := false }

/-- `i_sel_clear_fd_handler`, :680-728. -/
def clear (rpt : Bool) (s : St) : Option St :=
  match s.cur with
  | none => some (initFd s)
  | some o => do
    let s ← updateFd .del { s with cur := none }
    let s ← clearReg rpt o s
    some (initFd { s with saved := false, del := s.del + 1, tr := .gone o rpt :: s.tr })

/-- Which enable. -/
inductive Dir | rd | wr | ex
  deriving DecidableEq

def St.en (s : St) : Dir → Bool
  | .rd => s.rd
  | .wr => s.wr
  | .ex => s.ex

def St.setEn (s : St) (b : Bool) : Dir → St
  | .rd => { s with rd := b }
  | .wr => { s with wr := b }
  | .ex => { s with ex := b }

/-- `sel_set_fd_read_handler`, :748-777, `sel_set_fd_write_handler`, :781-810, and `sel_set_fd_except_handler`, :814-843. -/
def enable (d : Dir) (b : Bool) (s : St) : Option St :=
  if s.cur = none then some s
  else if s.en d = b then some s
  else updateFd .mod (s.setEn b d)

/-- `process_fds_epoll` at `rearm`, :1446-1450. -/
def rearm (s : St) : Option St := if s.cur = none then some s else updateFd .mod s

/-- `handle_selector_call` up to the call of the handler, :1199-1229, if there is one. -/
def startCall (en : Bool) (s : St) : Option (St × Option Nat) :=
  if en then
    match s.cur with
    | none => some (s, none)
    | some i =>
      if (s.regs i).freed then none
      else some ({ s.upd i (fun r => { r with use := r.use + 1 }) with tr := .start i :: s.tr }, some i)
  else some (s, none)

/-- Which enable the handler number `k` needs, and whether the event is for it, :1436-1444. -/
def wanted (e : Evs) (k : Nat) (s : St) : Bool :=
  match k with
  | 0 => (e.inp || e.hup) && s.rd
  | 1 => e.out && s.wr
  | _ => (e.pri || e.err) && s.ex

/-- Handler number 2 and what follows. -/
def run2 (e : Evs) (s : St) : Option St :=
  match startCall (wanted e 2 s) s with
  | none => none
  | some (s, some i) => some (park (.inH i s.data e 2) s)
  | some (s, none) => rearm s

/-- Handler number 1 and what follows. -/
def run1 (e : Evs) (s : St) : Option St :=
  match startCall (wanted e 1 s) s with
  | none => none
  | some (s, some i) => some (park (.inH i s.data e 1) s)
  | some (s, none) => run2 e s

/-- The handlers, :1436-1450. -/
def run0 (e : Evs) (s : St) : Option St :=
  match startCall (wanted e 0 s) s with
  | none => none
  | some (s, some i) => some (park (.inH i s.data e 0) s)
  | some (s, none) => run1 e s

/-- From handler number `k` on. -/
def runFrom (e : Evs) (k : Nat) (s : St) : Option St :=
  match k with
  | 0 => run0 e s
  | 1 => run1 e s
  | 2 => run2 e s
  | _ => rearm s

/-- `process_fds_epoll` after the wait, :1411-1450. -/
def got (c : Nat) (e : Evs) (s : St) : Option St :=
  if c ≠ s.del then rearm s
  else if e.hup || e.err then do
    let s ← updateFd .del s
    run0 { e with inp := true } { s with saved := true }
  else run0 e s

/-- `handle_selector_call` after the handler, :1230-1240. -/
def retH (i : Nat) (d : Option Nat) (e : Evs) (k : Nat) (s : St) : Option St :=
  if (s.regs i).freed || (s.regs i).use = 0 then none
  else
    let s := { s.upd i (fun r => { r with use := r.use - 1 }) with tr := .ret i :: s.tr }
    if (s.regs i).deleted && (s.regs i).use = 0 then
      let s := { s with cur := none }
      if (s.regs i).done then some (park (.inDone i e k) { s with tr := .done i d :: s.tr })
      else runFrom e (k + 1) (s.upd i (fun r => { r with freed := true }))
    else runFrom e (k + 1) s

/-- The same after the cleared callback, :1237-1240. -/
def retDone (i : Nat) (e : Evs) (k : Nat) (s : St) : Option St :=
  if (s.regs i).freed then none else runFrom e (k + 1) (s.upd i (fun r => { r with freed := true }))

/-- `finish_oldstate`, :568-576, called by the runner. -/
def runner (i : Nat) (s : St) : Option St :=
  if (s.regs i).freed then none
  else
    let s := s.upd i (fun r => { r with queued := false, freed := true })
    some (if (s.regs i).done then { s with tr := .done i (s.regs i).data :: s.tr } else s)

/-- A thread at `p` goes on. -/
def resume (s : St) : Pc → Option St
  | .setA o => setA o s
  | .setB o => setB o s
  /- The time is up. -/
  | .wait _ => some s
  | .got c e => got c e s
  | .inH i d e k => retH i d e k s
  | .inDone i e k => retDone i e k s

/-- What can happen. -/
inductive Act
  | set (done : Bool)
  | clear (rpt : Bool)
  | enable (d : Dir) (b : Bool)
  /-- Another descriptor is cleared. -/
  | other
  /-- A thread goes to wait, :1404-1407. -/
  | wait
  /-- The thread number `i` that waits gets an event. -/
  | event (i : Nat) (e : Evs)
  /-- Thread number `i` goes on. -/
  | cont (i : Nat)
  | runner (i : Nat)

/-- `epoll_pwait` returns an event for thread number `i`. -/
def event (i : Nat) (e : Evs) (s : St) : Option St :=
  match s.th[i]? with
  | some (.wait c) => some { s with armed := false, th := .got c e :: s.th.eraseIdx i }
  | _ => none

/-- What may happen: the descriptor was given to the selector before (`valid_fd`), only events asked for are reported, except
for hang up and error, and runners run when queued. -/
def En (s : St) : Act → Prop
  | .clear _ | .enable _ _ => s.n ≠ 0
  | .event i e => s.armed = true ∧ (e.inp → s.mRd) ∧ (e.out → s.mWr) ∧ (e.pri → s.mEx) ∧
      ∃ c, s.th[i]? = some (.wait c)
  | .cont i => i < s.th.length
  | .runner i => (s.regs i).queued = true
  | .set _ | .other | .wait => True

/-- One step. -/
def exec (a : Act) (s : St) : Option St :=
  match a with
  | .set d => set d s
  | .clear rpt => clear rpt s
  | .enable d b => enable d b s
  | .other => some { s with del := s.del + 1 }
  | .wait => some (park (.wait s.del) s)
  | .event i e => event i e s
  | .cont i =>
    match s.th[i]? with
    | none => none
    | some p => resume { s with th := s.th.eraseIdx i } p
  | .runner i => runner i s

end Gensio.SelFd
