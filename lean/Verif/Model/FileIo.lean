/-!
# Model of lib/gensio_file.c

A section of code between taking and releasing the lock is one step.  `filen_deferred_op` clears
`deferred_op_pending` when it starts, so it may be run again, by another thread, while it is in a
callback: `ths` are the operations that are in a callback now.  The branch of `USE_FILE_STDIO` (Windows)
is not modelled, nor are `filen_disable`, `filen_control`, the parameters and allocation failures.  The
completion function that is called is the one set when the lock was released.
-/
namespace Gensio.FileIo

/-- `enum filen_state`, gensio_file.c:29-35. -/
inductive St where
  | closed | inOpen | «open» | inOpenClose | inClose
deriving DecidableEq, Repr

/-- An error: end of file (`GE_REMCLOSE`), of a read call, of a closed gensio, or one the user's callback gave. -/
inductive Err where
  | remclose | io | localclosed | user
deriving DecidableEq, Repr

/-- The callback an operation is in. -/
inductive Pc where
  | openCb
  /-- The bytes offered. -/
  | readCb (d : List UInt8)
  | writeCb
  | closeCb
deriving DecidableEq, Repr

/-- Calls of the user's callbacks. -/
inductive Ev where
  | opened (id : Nat) (err : Option Err)
  | read (d : List UInt8) (err : Option Err)
  | writeReady
  | closed (id : Nat)
deriving DecidableEq, Repr

/-- `struct filen_data`, gensio_file.c:37-84.  `buf`: the first `data_pending_len` bytes of
`read_data`; `inf`: what is left to read of the input file if it is open; `outf`: the output file is
open.  Not in the code: `evs` the callbacks, `got` the bytes the user took, `fread` the bytes read from
input files, `cur` and `curRead` the content of the last input file opened and what was read of it,
`infOpens` the number of times an input file was opened, `wrote` what was written to output files, `opens`
and `closes` the calls accepted, `lost` the descriptors that nothing refers to any more, `overlap`: a
`memcpy` between parts that overlap was done. -/
structure F where
  st : St := .closed
  maxRead : Nat
  readClose : Bool
  infile : Bool
  outfile : Bool
  buf : List UInt8 := []
  rdErr : Option Err := none
  inf : Option (List UInt8) := none
  outf : Bool := false
  rd : Bool := false
  wr : Bool := false
  openId : Option Nat := none
  closeId : Option Nat := none
  queued : Bool := false
  ref : Nat := 1
  ths : List Pc := []
  freed : Bool := false
  gone : Bool := false
  evs : List Ev := []
  got : List UInt8 := []
  fread : List UInt8 := []
  cur : List UInt8 := []
  curRead : List UInt8 := []
  infOpens : Nat := 0
  wrote : List UInt8 := []
  opens : List Nat := []
  closes : List Nat := []
  lost : Nat := 0
  overlap : Bool := false
deriving DecidableEq, Repr

/-- `file_ndata_setup`, gensio_file.c:634-688. -/
def F.new (maxRead : Nat) (readClose infile outfile : Bool) : F := { maxRead, readClose, infile, outfile }

/-- `filen_unlock_and_deref`, gensio_file.c:295-306, with `filen_finish_free`, :256-274, which closes no
file. -/
def deref (s : F) : Option F :=
  if s.ref = 0 then none
  else if s.ref = 1 then some { s with ref := 0, gone := true, lost := s.lost + (if s.inf.isSome then 1 else 0) + (if s.outf then 1 else 0), inf := none, outf := false }
  else some { s with ref := s.ref - 1 }

/-- `filen_start_deferred_op`, gensio_file.c:423-432, with `filen_ref`, :288-293. -/
def startOp (s : F) : Option F :=
  if s.queued then some s
  else if s.ref = 0 then none
  else some { s with queued := true, ref := s.ref + 1 }

/-- What a read call does: gives up to `k` bytes, or fails. -/
inductive Rd where
  | ok (k : Nat)
  | fail
deriving DecidableEq, Repr

/-- `f_read`, gensio_file.c:221-237, as called at :362-372. -/
def fillBuf (s : F) (r : Rd) : F :=
  if s.buf = [] ∧ s.rdErr = none then
    match r with
    | .fail => { s with rd := false, rdErr := some .io }
    | .ok k =>
      let rest := s.inf.getD []
      let n := min (max k 1) (min s.maxRead rest.length)
      if n = 0 then { s with rd := false, rdErr := some .remclose }
      else { s with buf := rest.take n, inf := some (rest.drop n), fread := s.fread ++ rest.take n, curRead := s.curRead ++ rest.take n }
  else s

/-- The operation is in a callback. -/
def call (s : F) (p : Pc) (e : Ev) : Option F := some { s with ths := s.ths ++ [p], evs := s.evs ++ [e] }

/-- gensio_file.c:411-420: the end of `filen_deferred_op`. -/
def goTail (s : F) : Option F :=
  if s.st = .inClose then
    let s := { s with st := .closed }
    match s.closeId with
    | some id => call s .closeCb (.closed id)
    | none => deref s
  else deref s

/-- gensio_file.c:399-409: the loop of write callbacks. -/
def goWrite (s : F) : Option F :=
  if s.st = .open ∧ s.wr then call s .writeCb .writeReady else goTail s

/-- gensio_file.c:358-379: the loop of read callbacks.  At the end of a file that is not to be reported
reads are switched off, which ends the loop. -/
def goRead (s : F) (r : Rd) : Option F :=
  if s.st = .open ∧ (s.inf.isSome ∨ s.rdErr.isSome) ∧ s.rd then
    let s := fillBuf s r
    if ¬s.readClose ∧ s.rdErr = some .remclose then
      -- :388-396: what is pending is dropped here
      goWrite { s with rd := false, buf := [] }
    else call s (.readCb s.buf) (.read s.buf s.rdErr)
  else goWrite s

/-- `filen_deferred_op`, gensio_file.c:335-421, up to the first callback. -/
def startRun (s : F) (r : Rd) : Option F :=
  if s.st = .inOpen ∨ s.st = .inOpenClose then
    let err := if s.st = .inOpenClose then some Err.localclosed else none
    let s : F := { s with st := if s.st = St.inOpenClose then St.inClose else St.open }
    match s.openId with
    | some id => call s .openCb (.opened id err)
    | none => goRead s r
  else goRead s r

/-- gensio_file.c:388-396: `count` bytes were taken. -/
def consume (s : F) (count : Nat) : F :=
  if count > 0 then
    if count ≥ s.buf.length then { s with buf := [] }
    else { s with buf := s.buf.drop count, overlap := s.overlap || decide (count < s.buf.length - count) }
  else s

/-- `filen_deferred_op` goes on after the callback `p` that gave `err`, having taken `count` bytes if
it was a read callback. -/
def resume (s : F) (p : Pc) (err : Bool) (count : Nat) (r : Rd) : Option F :=
  match p with
  | .openCb => goRead s r
  | .readCb d =>
    if err then goWrite { s with rd := false, rdErr := some .user }
    else goRead (consume { s with got := s.got ++ d.take count } count) r
  | .writeCb => if err then goTail { s with rd := false, rdErr := some .user } else goWrite s
  | .closeCb => deref s

/-- What can happen. -/
inductive Op where
  /-- The runner runs `filen_deferred_op`. -/
  | run (r : Rd)
  /-- The callback of operation `i` returns. -/
  | ret (i : Nat) (err : Bool) (count : Nat) (r : Rd)
  /-- `k`: how much the system takes; `none`: the call fails. -/
  | write (sg : List (List UInt8)) (k : Option Nat)
  | setRead (b : Bool)
  | setWrite (b : Bool)
  /-- `d`: the content of the input file, `none` if it cannot be opened; `ok`: the output file can be opened. -/
  | «open» (id : Option Nat) (d : Option (List UInt8)) (ok : Bool)
  | close (id : Option Nat)
  | free
deriving DecidableEq, Repr

/-- `filen_write`, gensio_file.c:308-333, with `f_writev`, :203-220: the count given to the user, `none`
for an error, and what went to the file. -/
def write (s : F) (sg : List (List UInt8)) (k : Option Nat) : Option Nat × F :=
  if s.st ≠ .open then (none, s)
  else if ¬s.outf then (some (sg.length * ((sg.head?.map (·.length)).getD 0)), s)
  else match k with
    | none => (none, s)
    | some k =>
      let n := min (max k 1) sg.flatten.length
      if n = 0 then (none, s)
      else (some n, { s with wrote := s.wrote ++ sg.flatten.take n })

/-- `filen_open`, gensio_file.c:462-502. -/
def fopen (s : F) (id : Option Nat) (d : Option (List UInt8)) (ok : Bool) : Option F :=
  if s.st ≠ .closed then some s
  else if s.infile ∧ d = none then some s
  else
    let s := if s.infile then { s with inf := d, cur := d.getD [], curRead := [], infOpens := s.infOpens + 1, lost := s.lost + if s.inf.isSome then 1 else 0 } else s
    if s.outfile ∧ ¬ok then some s
    else
      let s := if s.outfile then { s with outf := true, lost := s.lost + if s.outf then 1 else 0 } else s
      startOp { s with st := .inOpen, openId := id, opens := s.opens ++ id.toList }

/-- `filen_close`, gensio_file.c:504-534. -/
def fclose (s : F) (id : Option Nat) : Option F :=
  if s.st ≠ .open ∧ s.st ≠ .inOpen then some s
  else startOp { s with inf := none, outf := false, st := if s.st = .inOpen then .inOpenClose else .inClose, closeId := id, closes := s.closes ++ id.toList }

/-- `filen_set_read_callback_enable`, gensio_file.c:434-446. -/
def setRead (s : F) (b : Bool) : Option F :=
  if s.rd = b then some s
  else if b ∧ s.st = .open ∧ s.inf.isSome then startOp { s with rd := b }
  else some { s with rd := b }

/-- `filen_set_write_callback_enable`, gensio_file.c:448-460. -/
def setWrite (s : F) (b : Bool) : Option F :=
  if s.wr = b then some s
  else if b ∧ s.st = .open then startOp { s with wr := b }
  else some { s with wr := b }

/-- `filen_free`, gensio_file.c:536-546. -/
def ffree (s : F) : Option F :=
  if s.ref = 0 then none
  else deref { s with freed := true, st := if s.ref = 1 then .closed else s.st }

/-- A call by the user, when he has not freed the gensio. -/
def user (s : F) : Op → Option F
  | .write sg k => some (write s sg k).2
  | .setRead b => setRead s b
  | .setWrite b => setWrite s b
  | .open id d ok => fopen s id d ok
  | .close id => fclose s id
  | .free => ffree s
  | _ => some s

/-- One step; `none` is an assertion that fails or a use of freed memory.  What cannot happen leaves
the state as it is. -/
def step (s : F) : Op → Option F
  | .run r => if s.queued then (if s.gone then none else startRun { s with queued := false } r) else some s
  | .ret i e count r =>
    match s.ths[i]? with
    | some p => if s.gone then none else resume { s with ths := s.ths.eraseIdx i } p e count r
    | none => some s
  | o => if s.freed then some s else if s.gone then none else user s o

/-- A run. -/
def run (s : F) : List Op → Option F
  | [] => some s
  | o :: os => (step s o).bind fun s => run s os

end Gensio.FileIo
