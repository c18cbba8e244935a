/-!
# Two children below one gensio

`lib/ll_2gensio.c` :18-253: a lower layer that reads from one child gensio and writes to another (AX.25 and the modem use it).  The
children are automata that keep the promises of a gensio: an open or close that is accepted is reported once, later; an open is accepted
at most if the child is closed, a close exactly if it is open.  All functions hold the lock and call reports at their end; each is one
step.  A result `none` is a failed assertion, or something the children would never do.
-/
namespace Gensio.Ll2

/-- `enum ll_2gensio_state`, :18-32. -/
inductive St | closed | inOpen | openErr | openClose | «open» | inClose
deriving DecidableEq, Repr

/-- The handler of a close: `child_close_handler`, :92-105, or `child_open_close_handler`, :110-130. -/
inductive Hd | normal | failed
deriving DecidableEq, Repr

/-- A child gensio. -/
inductive Ch | closed | opening | opened | closing (h : Hd)
deriving DecidableEq, Repr

/-- What the upper layer asked for (and was accepted) and what it was told. -/
inductive Ev | openReq | openDone (err : Option Nat) | closeReq | closeDone
deriving DecidableEq, Repr

/-- `struct ll_2gensio_child`, :34-57, with the two children.  `err` is `open_err`. -/
structure L where
  st : St := .closed
  err : Option Nat := none
  opens : Nat := 0
  closes : Nat := 0
  inOp : Bool := false
  outOp : Bool := false
  cin : Ch := .closed
  cout : Ch := .closed
  log : List Ev := []
deriving DecidableEq, Repr

/-- A report or a request. -/
def L.say (l : L) (e : Ev) : L := { l with log := l.log ++ [e] }

/-- `gensio_close` of a child: its new state and whether the close was accepted.  A child that is being opened is never closed. -/
def closeCh (c : Ch) (h : Hd) : Option (Ch × Bool) :=
  match c with
  | .opened => some (.closing h, true)
  | .opening => none
  | c => some (c, false)

/-- `gensio_open` of a child, which may refuse with an error; `GE_NOTREADY` (12) if it is not closed. -/
def openCh (c : Ch) (r : Option Nat) : Ch × Option Nat :=
  match c, r with
  | .closed, none => (.opening, none)
  | .closed, some e => (.closed, some e)
  | c, _ => (c, some 12)

/-- What a call returns: 0, or an error (`GE_INUSE` is 10, `GE_INPROGRESS` 11). -/
abbrev Rv := Nat

/-- `child_open`, :182-212.   -/
def L.open (l : L) (ri ro : Option Nat) : L × Rv :=
  if l.st ≠ .closed then (l, 10)
  else
    let l := { l with opens := 2 }
    match openCh l.cin ri with
    | (c, some e) => ({ l with cin := c }, e)
    | (c, none) =>
      let l := { l with cin := c, st := .inOpen }
      match openCh l.cout ro with
      | (c, some e) => (({ l with cout := c, st := .openErr, err := some e, opens := l.opens - 1 } : L).say .openReq, 11)
      | (c, none) => (({ l with cout := c } : L).say .openReq, 11)

/-- `child_close`, :214-253. -/
def L.close (l : L) : Option (L × Rv) :=
  match l.st with
  | .closed | .inClose | .openClose => some (l, 10)
  | .inOpen | .openErr => some (({ l with st := .openClose } : L).say .closeReq, 0)
  | .open =>
    (closeCh l.cin .normal).bind fun a => if !a.2 then none else
    (closeCh l.cout .normal).bind fun b => if !b.2 then none else
    some (({ l with closes := 2, cin := a.1, cout := b.1 } : L).say .closeReq, 0)

/-- `child_close_handler`, :92-105. -/
def L.closeHandler (l : L) : Option L :=
  if l.closes = 0 then none
  else
    let l := { l with closes := l.closes - 1 }
    some (if l.closes = 0 then l.say .closeDone else l)

/-- `child_open_close_handler`, :110-130: the state is set before it is looked at. -/
def L.openCloseHandler (l : L) : Option L :=
  if l.closes = 0 then none
  else
    let l := { l with closes := l.closes - 1 }
    if l.closes = 0 then
      let l := { l with st := .closed }
      some (if l.st = .openClose then l.say .closeDone else l.say (.openDone l.err))
    else some l

/-- The close of one child in `child_open_handler`, :150-159; the result of `gensio_close` is not looked at. -/
def L.undoIn (l : L) : Option (L × Bool) :=
  if l.inOp then (closeCh l.cin .failed).map fun r => ({ l with closes := l.closes + 1, cin := r.1 }, false) else some (l, true)

@[inherit_doc L.undoIn] def L.undoOut (l : L) (b : Bool) : Option (L × Bool) :=
  if l.outOp then (closeCh l.cout .failed).map fun r => ({ l with closes := l.closes + 1, cout := r.1 }, false) else some (l, b)

/-- `child_open_handler`, :132-180; `isIn` says which child. -/
def L.openHandler (l : L) (isIn : Bool) (err : Option Nat) : Option L :=
  let l := match err with
    | some e => { l with err := some e }
    | none => if isIn then { l with inOp := true } else { l with outOp := true }
  if l.opens = 0 then none
  else
    let l := { l with opens := l.opens - 1 }
    if l.opens = 0 then
      if l.st = .openClose ∨ l.err.isSome then
        l.undoIn.bind fun a => (a.1.undoOut a.2).map fun b =>
          let l := b.1
          if b.2 then
            let l := { l with st := .closed }
            if l.st = .openClose then l.say .closeDone else l.say (.openDone l.err)
          else if l.st ≠ .openClose then { l with st := .openErr } else l
      else
        let l := { l with st := .open }
        some (l.say (.openDone l.err))
    else some l

/-- What happens: calls of the upper layer, reports of the children. -/
inductive Op
  | «open» (ri ro : Option Nat) | close | opened (isIn : Bool) (err : Option Nat) | closed (isIn : Bool)
deriving DecidableEq, Repr

/-- A child. -/
def L.child (l : L) (isIn : Bool) : Ch := if isIn then l.cin else l.cout

/-- A child changes. -/
def L.setChild (l : L) (isIn : Bool) (c : Ch) : L := if isIn then { l with cin := c } else { l with cout := c }

/-- One step; reports that can not come change nothing. -/
def step (l : L) : Op → Option (L × Rv)
  | .open ri ro => some (l.open ri ro)
  | .close => l.close
  | .opened isIn err =>
    if l.child isIn = .opening then
      ((l.setChild isIn (if err.isSome then .closed else .opened)).openHandler isIn err).map fun l => (l, 0)
    else some (l, 0)
  | .closed isIn =>
    match l.child isIn with
    | .closing .normal => (l.setChild isIn .closed).closeHandler.map fun l => (l, 0)
    | .closing .failed => (l.setChild isIn .closed).openCloseHandler.map fun l => (l, 0)
    | _ => some (l, 0)

/-- Steps one after the other. -/
def run (l : L) : List Op → Option L
  | [] => some l
  | o :: os => (step l o).bind fun r => run r.1 os

/-- The children have nothing to report. -/
def L.quiet (l : L) : Bool := (l.cin = .closed ∨ l.cin = .opened) ∧ (l.cout = .closed ∨ l.cout = .opened)

end Gensio.Ll2
