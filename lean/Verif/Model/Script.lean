/-!
# The filter that runs a script before the open is reported

`lib/gensio_script.c` :26-466.  A second gensio (`io`, usually a program) is opened and connected with the lower layer until it ends; then the
open is reported to `gensio_base.c`, and from then on data passes.  Each section between `script_lock` and `script_unlock` is one step; the
handler of `script_ul_write` runs without the lock (`ulBegin`, `ulEnd`).  The test of :212 before the lock and the lock are one step, and
`gensio_free` of `io` stops its callbacks.  A result `none` is a use of the NULL pointer `io` or `rcount`, or a lock that is taken while it is
held.
-/
namespace Gensio.Script

/-- `GE_NOTFOUND`, `include/gensio/gensio_err.h` :22. -/
def notFound : Nat := 4
/-- `GE_NOTREADY`, :30. -/
def notReady : Nat := 12
/-- `GE_REMCLOSE`, :44. -/
def remClose : Nat := 26
/-- `GE_LOCALCLOSED`, :53. -/
def localClosed : Nat := 35

/-- `enum script_state`, `gensio_script.c` :26-32. -/
inductive St | closed | subOpen | inOpen | «open» | openFail
deriving DecidableEq, Repr

/-- The gensio of the script. -/
inductive Io | none | opening | opened | closing
deriving DecidableEq, Repr

/-- `struct script_filter`, :34-66.  The buffers hold what is between `pos` and `pos + len`.  `locked` is the lock between steps, `bad` notes an
unlock of a lock that is not held, `inUl` what a running handler was offered; `made` and `freed` count the gensios of the script. -/
structure S where
  st : St := .closed
  err : Nat := 0
  locked : Bool := false
  bad : Bool := false
  s2g : List UInt8 := []
  g2s : List UInt8 := []
  io : Io := .none
  rEn : Bool := false
  wEn : Bool := false
  inUl : Option (List UInt8) := none
  made : Nat := 0
  freed : Nat := 0
deriving DecidableEq, Repr

/-- What the script's gensio answers at its end: the result of `gensio_close`, of the control for the exit code, and the exit code. -/
structure Fin where
  cerr : Nat := 0
  ctl : Nat := 0
  code : Nat := 0

/-- What a step gives: the count reported, and the report of the open if there is one. -/
structure Out where
  count : Nat := 0
  done : Option Nat := none
deriving DecidableEq, Repr

/-- `script_finish_close`, :123-159. -/
def S.finish (f : Fin) (s : S) : Option (S × Out) :=
  if s.io = .none then none
  else
    let e := if s.err = 0 then
        (if f.ctl = 0 then (if f.code ≠ 0 then localClosed else 0) else if f.ctl = notFound then 0 else f.ctl)
      else s.err
    some ({ s with err := e, st := if e ≠ 0 then .openFail else .open, io := .none, freed := s.freed + 1 }, { done := some e })

/-- :172-178 and :183, with the lock held: the second unlock is noted. -/
def S.fail (err : Nat) (f : Fin) (s : S) : Option (S × Out) :=
  if s.io = .none then none
  else
    match S.finish f { s with err := err, rEn := false, wEn := false, st := .openFail } with
    | none => none
    | some (s, o) => some ({ s with bad := true }, o)

/-- `script_handle_err_unlock`, :161-184.  A gensio that is not open can not be closed. -/
def S.handleErr (err : Nat) (f : Fin) (s : S) : Option (S × Out) :=
  let err := if s.st = .inOpen ∧ err = remClose then 0 else err
  if err ≠ 0 then s.fail err f
  else if s.io = .none then none
  else
    let cerr := if s.io = .opened then f.cerr else notReady
    if cerr ≠ 0 then s.fail cerr f else some ({ s with err := 0, io := .closing }, {})

/-- `script_try_connect`, :278-314.  `create` is the result of `str_to_gensio` and `oerr` that of `gensio_open`. -/
def S.tryConnect (create oerr : Nat) (s : S) : Option (S × Out) :=
  if s.locked then none
  else
    match s.st with
    | .closed =>
      if create ≠ 0 then some (s, {})
      else if oerr ≠ 0 then some ({ s with io := .none, made := s.made + 1, freed := s.freed + 1 }, {})
      else some ({ s with io := .opening, made := s.made + 1, st := .subOpen }, {})
    | _ => some (s, {})

/-- `script_open_done`, :186-201. -/
def S.openDone (err : Nat) (f : Fin) (s : S) : Option (S × Out) :=
  if s.io ≠ .opening then some (s, {})
  else if s.locked then none
  else if err ≠ 0 then s.handleErr err f
  else some ({ s with st := .inOpen, io := .opened, rEn := true }, {})

/-- `GENSIO_EVENT_READ`, :212-241.  The whole of `*buflen` is reported if it is not set. -/
def S.read (err : Nat) (data : List UInt8) (f : Fin) (s : S) : Option (S × Out) :=
  if s.st ≠ .inOpen ∨ s.io = .none then some (s, {})
  else if s.locked then none
  else if err ≠ 0 then s.handleErr err f
  else if data.length = 0 then some (s, {})
  else if s.s2g.length > 0 then some ({ s with rEn := false }, {})
  else some ({ s with s2g := data.take 1024, rEn := false }, { count := data.length })

/-- `GENSIO_EVENT_WRITE_READY`, :243-267.  `werr` and `n` are the answer of `gensio_write`. -/
def S.writeReady (werr n : Nat) (f : Fin) (s : S) : Option (S × Out) :=
  if s.st ≠ .inOpen ∨ s.io = .none then some (s, {})
  else if s.locked then none
  else if s.g2s.length = 0 then some ({ s with wEn := false }, {})
  else if werr ≠ 0 then s.handleErr werr f
  else if n ≥ s.g2s.length then some ({ s with g2s := [], wEn := false }, { count := s.g2s.length })
  else some ({ s with g2s := s.g2s.drop n }, { count := n })

/-- The close of the script's gensio is done: `script_finish_close` as callback of :179. -/
def S.closeDone (f : Fin) (s : S) : Option (S × Out) :=
  if s.io ≠ .closing then some (s, {}) else s.finish f

/-- `script_try_disconnect`, :316-340. -/
def S.tryDisconnect (s : S) : Option (S × Out) :=
  if s.locked then none
  else
    match s.st with
    | .subOpen | .inOpen =>
      some ({ s with io := .none, freed := s.freed + (if s.io = .none then 0 else 1), st := .closed }, {})
    | .open => some ({ s with st := .closed }, {})
    | _ => some (s, {})

/-- `script_ul_write` with the NULL count of `gensio_base.c` :648 and :1804, up to the handler, :353-369.  In the last states it returns
with the lock, :386. -/
def S.ulBegin (s : S) : Option (S × Out) :=
  match s.st with
  | .open => some (s, {})
  | .subOpen => none
  | .inOpen =>
    if s.locked then none
    else if s.s2g.length > 0 then some ({ s with inUl := some s.s2g }, {}) else some (s, {})
  | _ => if s.locked then none else some ({ s with locked := true }, {})

/-- The rest of it, :371-398. -/
def S.ulEnd (err n : Nat) (f : Fin) (s : S) : Option (S × Out) :=
  match s.inUl with
  | none => some (s, {})
  | some o =>
    let s := { s with inUl := none }
    if s.locked then none
    else if err ≠ 0 then s.handleErr err f
    else if n ≥ s.s2g.length then
      if s.io = .none then none else some ({ s with s2g := [], rEn := true }, { count := o.length })
    else some ({ s with s2g := s.s2g.drop n }, { count := n })

/-- `script_ll_write`, :400-441, while the script runs. -/
def S.llWrite (data : List UInt8) (s : S) : Option (S × Out) :=
  match s.st with
  | .open => some (s, {})
  | .inOpen =>
    if s.locked then none
    else if s.g2s.length = 0 ∧ data.length > 0 then
      if s.io = .none then none
      else some ({ s with g2s := data.take 1024, wEn := true }, { count := min data.length 1024 })
    else some (s, {})
  | _ => if s.locked then none else some (s, {})

/-- `script_setup`, :443-455. -/
def S.setup (s : S) : S := { s with err := 0, s2g := [], g2s := [], st := .closed }

/-- `script_filter_cleanup`, :457-466. -/
def S.cleanup (s : S) : S := if s.io = .none then s else { s with io := .none, freed := s.freed + 1 }

/-- What may happen: calls of the base, and of the script's gensio. -/
inductive Ev
  | setup
  | cleanup
  | tryConnect (create oerr : Nat)
  | openDone (err : Nat) (f : Fin)
  | read (err : Nat) (data : List UInt8) (f : Fin)
  | writeReady (werr n : Nat) (f : Fin)
  | closeDone (f : Fin)
  | tryDisconnect
  | ulBegin
  | ulEnd (err n : Nat) (f : Fin)
  | llWrite (data : List UInt8)

/-- One step. -/
def S.step (s : S) : Ev → Option (S × Out)
  | .setup => some (s.setup, {})
  | .cleanup => some (s.cleanup, {})
  | .tryConnect c o => s.tryConnect c o
  | .openDone e f => s.openDone e f
  | .read e d f => s.read e d f
  | .writeReady e n f => s.writeReady e n f
  | .closeDone f => s.closeDone f
  | .tryDisconnect => s.tryDisconnect
  | .ulBegin => s.ulBegin
  | .ulEnd e n f => s.ulEnd e n f
  | .llWrite d => s.llWrite d

/-- What was seen from outside since the last `setup`: bytes taken from and given to the script and the lower layer, and reports of the open. -/
structure N where
  fromScript : List UInt8 := []
  toLower : List UInt8 := []
  fromLower : List UInt8 := []
  toScript : List UInt8 := []
  dones : List Nat := []
deriving DecidableEq, Repr

/-- The notes of a step: what is reported as taken counts as taken. -/
def N.note (s : S) (o : Out) (n : N) (ev : Ev) : N :=
  let n := match o.done with
    | none => n
    | some e => { n with dones := n.dones ++ [e] }
  match ev with
  | .setup => {}
  | .read _ d _ => { n with fromScript := n.fromScript ++ d.take o.count }
  | .writeReady _ _ _ => { n with toScript := n.toScript ++ s.g2s.take o.count }
  | .ulEnd _ _ _ => { n with toLower := n.toLower ++ (s.inUl.getD []).take o.count }
  | .llWrite d => { n with fromLower := n.fromLower ++ d.take o.count }
  | _ => n

/-- A history. -/
def run (s : S) (n : N) : List Ev → Option (S × N)
  | [] => some (s, n)
  | ev :: evs =>
    match s.step ev with
    | none => none
    | some (s', o) => run s' (n.note s o ev) evs

end Gensio.Script
