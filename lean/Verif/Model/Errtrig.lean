/-!
# Failures on purpose (`lib/errtrig.c`)

With `GENSIO_ERRTRIG_TEST` set, one call of `do_errtrig` is true, which makes an
allocation or the like fail, and `errtrig_exit` changes the exit code so that it
tells whether that happened.

Simplifications: calls are under a lock and are single steps; the environment is
the number that `strtoul` got from it; the place of the call is left out.
-/

namespace Gensio.Errtrig

/-- The variables (`errtrig.c:23-28`). -/
structure S where
  initialized : Bool := false
  ready : Bool := false
  triggered : Bool := false
  count : Nat := 0
  curr : Nat := 0
deriving DecidableEq, Repr

/-- An `unsigned int` and one. -/
def inc (c : Nat) : Nat := if c + 1 = 4294967296 then 0 else c + 1

/-- The first part of `do_errtrig` (`errtrig.c:39-47`): the number is put into an
`unsigned int`. -/
def S.init (env : Option Nat) (s : S) : S :=
  if s.initialized then s
  else
    match env with
    | none => { s with initialized := true }
    | some n => { s with initialized := true, count := n % 4294967296, ready := true }

/-- `do_errtrig` (`errtrig.c:32-67`). -/
def S.trig (env : Option Nat) (s : S) : S × Bool :=
  let s := s.init env
  if s.ready then
    if s.curr = s.count then ({ s with curr := inc s.curr, triggered := true }, true)
    else ({ s with curr := inc s.curr }, false)
  else (s, false)

/-- Many calls. -/
def S.trigs (env : Option Nat) (s : S) : Nat → S × List Bool
  | 0 => (s, [])
  | m + 1 =>
    let r := s.trigs env m
    let t := r.1.trig env
    (t.1, r.2 ++ [t.2])

/-- `errtrig_exit` (`errtrig.c:70-94`): the exit code; `none` is the assertion. -/
def S.exit (s : S) (rv : Nat) : Option Nat :=
  if s.ready = false then some rv
  else if rv = 0 then some (if s.triggered then 2 else 0)
  else if rv = 1 then some (if s.triggered then 1 else 3)
  else none

end Gensio.Errtrig
