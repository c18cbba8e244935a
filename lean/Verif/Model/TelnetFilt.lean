import Verif.Model.Telnet
/-!
# Model of the telnet filter with errors, urgent data and reopening, lib/sergensio_telnet.c

Model/Telnet.lean has the write side when the lower layer makes no error.  Here `write_data` is a
buffer with a position, so that a read outside it shows (`none`), the lower layer may fail, the
filter may be cleaned up and set up again, and received data may be urgent.
-/
namespace Gensio.TelnetFilt
open Telnet (Rx WState)

/-- TN_DATA_MARK, lib/telnet.h:15. -/
abbrev DM : UInt8 := 242

/-! ### Writing -/

/-- Answer of the lower layer to a write. -/
inductive Ans where
  | took (n : Nat)
  | fail
deriving DecidableEq, Repr

/-- The write fields of `struct telnet_filter`, :84-105: the command queue, `write_data` with its
position and length, `write_state`; `ext` is set if RFC 2217 or RFC 1073 is wanted. -/
structure W where
  cmdQ : List UInt8
  mem : Mem
  pos : Nat
  len : Nat
  st : WState
  ext : Bool
deriving DecidableEq, Repr

/-- A filter as allocated, `gensio_telnet_filter_raw_alloc` :739-793, before it is set up. -/
def W.new (maxWrite : Nat) (ext : Bool) : W := ⟨[], List.replicate maxWrite 0, 0, 0, .notWriting, ext⟩

/-- `telnet_setup`, :495-523, with the initial sequence `seq`: `write_state` is only set if RFC 2217 or
RFC 1073 is wanted. -/
def W.setup (w : W) (seq : List UInt8) : W :=
  let q := seq.take Telnet.maxXmit
  { w with cmdQ := q, st := if w.ext then (if q ≠ [] then .inTnWrite else .notWriting) else w.st }

/-- `telnet_filter_cleanup`, :525-537. -/
def W.cleanup (w : W) : W := { w with len := 0, pos := 0 }

/-- `telnet_clear_write`, :170-175. -/
def W.clear (w : W) : W := { w with len := 0, cmdQ := [] }

/-- `telnet_cmd_send`, lib/telnet.c:26-37. -/
def W.cmdSend (w : W) (cmd : List UInt8) : W :=
  { w with cmdQ := w.cmdQ ++ cmd.take (Telnet.maxXmit - w.cmdQ.length) }

/-- The first part of `telnet_ul_write`, :250-270: user data is escaped into `write_data` if that
is empty.  Result: bytes taken. -/
def W.load (w : W) (sg : List (List UInt8)) : Option (W × Nat) :=
  if w.len ≠ 0 then some (w, 0)
  else
    let a := Telnet.takeSg w.mem.length sg
    (w.mem.write 0 a.1).map fun m => ({ w with mem := m, len := a.1.length }, a.2)

/-- The second part, :272-287: commands go out unless user data is partly written.  Result: bytes
given to the lower layer, whether it failed. -/
def W.pushCmd (w : W) (ans : Ans) : W × List UInt8 × Bool :=
  if w.st ≠ .inUserWrite ∧ w.cmdQ ≠ [] then
    match ans with
    | .fail => (w.clear, [], true)
    | .took n =>
      ({ w with cmdQ := w.cmdQ.drop n, st := if w.cmdQ.drop n ≠ [] then .inTnWrite else .notWriting }, w.cmdQ.take n, false)
  else (w, [], false)

/-- The third part, :289-310: user data goes out unless commands are partly written. -/
def W.pushUser (w : W) (ans : Ans) : Option (W × List UInt8 × Bool) :=
  if w.st ≠ .inTnWrite ∧ w.len ≠ 0 then
    (w.mem.read w.pos w.len).map fun d =>
      match ans with
      | .fail => (w.clear, [], true)
      | .took n =>
        if n ≥ w.len then ({ w with st := .notWriting, len := 0, pos := 0 }, d, false)
        else ({ w with st := .inUserWrite, len := w.len - n, pos := w.pos + n }, d.take n, false)
  else some (w, [], false)

/-- Result of a write: new state, bytes for the lower layer, bytes taken from the user, failure. -/
structure WRes where
  w : W
  out : List UInt8
  taken : Nat
  err : Bool
deriving DecidableEq, Repr

/-- `telnet_ul_write`, :240-313. -/
def W.ulWrite (w : W) (sg : List (List UInt8)) (a1 a2 : Ans) : Option WRes :=
  (w.load sg).bind fun l =>
    let p := l.1.pushCmd a1
    (p.1.pushUser a2).map fun q =>
      -- `err` of the second write replaces that of the first if there is one
      ⟨q.1, p.2.1 ++ q.2.1, l.2, if p.1.st ≠ .inTnWrite ∧ p.1.len ≠ 0 then q.2.2 else p.2.2⟩

/-- What happens to the write side. -/
inductive WOp where
  | setup (seq : List UInt8)
  | write (sg : List (List UInt8)) (a1 a2 : Ans)
  | cmd (c : List UInt8)
  | cleanup
deriving DecidableEq, Repr

/-- State of a run: the filter, the error seen, what went out since the last setup and what was
taken from the user since then. -/
structure WRun where
  w : W
  err : Bool := false
  out : List UInt8 := []
  taken : Nat := 0
deriving DecidableEq, Repr

/-- One of them. -/
def WRun.step (r : WRun) : WOp → Option WRun
  | .setup seq => some { r with w := r.w.setup seq, out := [], taken := 0 }
  | .write sg a1 a2 => (r.w.ulWrite sg a1 a2).map fun q => ⟨q.w, r.err || q.err, r.out ++ q.out, r.taken + q.taken⟩
  | .cmd c => some { r with w := r.w.cmdSend c }
  | .cleanup => some { r with w := r.w.cleanup, err := false }

/-- A run. -/
def WRun.run (r : WRun) : List WOp → Option WRun
  | [] => some r
  | o :: os => (r.step o).bind fun r => WRun.run r os

/-- The gensio above writes nothing after an error until it was closed (`ll_err`,
gensio_base.c:710-713 and :645-646), so until the filter was cleaned up. -/
def WRun.heed (r : WRun) : List WOp → Bool
  | [] => true
  | o :: os => (match o with | .write .. => !r.err | _ => true) &&
      (match r.step o with | some r => WRun.heed r os | none => true)

/-! ### Reading -/

/-- Auxiliary data of received data. -/
inductive Aux where
  | plain | oobtcp | oob
deriving DecidableEq, Repr

/-- The read fields of `struct telnet_filter`: the parser, `in_urgent`, and the data waiting for the
user. -/
structure R where
  rx : Rx
  urgent : Nat
  rdata : List UInt8
deriving DecidableEq, Repr

/-- After `telnet_setup`. -/
def R.init : R := ⟨Rx.init, 0, []⟩

/-- The loop over urgent data, :354-376: `in_urgent` and the data left; `true` if the mark was found
(`got_sync` is called).  The mark itself is left in the data. -/
def skipUrgent : Nat → List UInt8 → Nat × List UInt8 × Bool
  | u, [] => (u, [], false)
  | u, b :: bs =>
    if u = 2 then
      if b = DM then (0, b :: bs, true) else skipUrgent 1 bs
    else if b = 255 then skipUrgent 2 bs
    else skipUrgent u bs

/-- Result of `telnet_ll_write`: new state, bytes consumed, data given to the user, commands handled,
whether the mark was found. -/
structure RRes where
  r : R
  used : Nat
  out : List UInt8
  cmds : List (List UInt8)
  sync : Bool
deriving DecidableEq, Repr

/-- The start of `telnet_ll_write`, :329-346. -/
def R.start (r : R) (aux : Aux) : R :=
  if aux = .oobtcp then { r with urgent := if r.rx.pos = 1 then 2 else 1, rx := { r.rx with pos := 0 } } else r

/-- `telnet_ll_write`, :315-413, without an error of the user, who takes `ucount` bytes of what he is
offered; `maxRead` is `max_read_size`. -/
def R.llWrite (r : R) (maxRead : Nat) (aux : Aux) (buf : List UInt8) (ucount : Nat) : Option RRes :=
  if aux = .oob then some ⟨r, buf.length, [], [], false⟩
  else
    let r := r.start aux
    (if r.rdata ≠ [] ∨ buf = [] then some (r, 0, ([] : List (List UInt8)), false)
     else
      let k := if r.urgent ≠ 0 then skipUrgent r.urgent buf else (r.urgent, buf, false)
      (Telnet.processData r.rx maxRead k.2.1).map fun p =>
        ({ r with rx := p.rx, urgent := k.1, rdata := p.out }, buf.length - k.2.1.length + p.used, p.cmds, k.2.2)).map
    fun a => ⟨{ a.1 with rdata := a.1.rdata.drop ucount }, a.2.1, a.1.rdata.take ucount, a.2.2.1, a.2.2.2⟩

/-! ### Allocation -/

/-- The objects `gensio_telnet_filter_alloc` and `gensio_telnet_filter_raw_alloc` allocate. -/
inductive Obj where
  | cmds | initSeq | tfilter | lock | readData | writeData | filter
deriving DecidableEq, Repr

/-- Ledger of the allocator: what is allocated now. -/
abbrev Ledger := List Obj

/-- `free` of a pointer; `none` if it is not allocated (freed twice). -/
def release (l : Ledger) (o : Obj) : Option Ledger := if o ∈ l then some (l.erase o) else none

/-- Free several objects. -/
def releaseAll (l : Ledger) : List Obj → Option Ledger
  | [] => some l
  | o :: os => (release l o).bind fun l => releaseAll l os

/-- `tfilter_free`, :548-569, of a filter of which `have` was allocated (NULL pointers are skipped). -/
def tfilterFree (l : Ledger) (seq : Bool) (have_ : List Obj) : Option Ledger :=
  releaseAll l ([Obj.lock].filter (· ∈ have_) ++ [.cmds] ++ (if seq then [.initSeq] else []) ++
    [Obj.readData].filter (· ∈ have_) ++ [Obj.writeData].filter (· ∈ have_) ++ [.tfilter])

/-- Allocate the objects of a list in order; `fail` is the one that cannot be had.  Result: ledger,
those got, whether all were. -/
def getAll (l : Ledger) (fail : Option Obj) : List Obj → Ledger × List Obj × Bool
  | [] => (l, [], true)
  | o :: os => if fail = some o then (l, [], false) else
      let r := getAll (l ++ [o]) fail os
      (r.1, o :: r.2.1, r.2.2)

/-- `gensio_telnet_filter_alloc`, :913-1003, with `gensio_telnet_filter_raw_alloc`, :739-793: `seq`
tells whether there is an initial sequence, `fail` the allocation that fails. -/
def alloc (seq : Bool) (fail : Option Obj) : Option (Ledger × Bool) :=
  let a := getAll [] fail ([.cmds] ++ if seq then [.initSeq] else [])
  if !a.2.2 then (releaseAll a.1 a.2.1).map fun l => (l, false)
  else if fail = some .tfilter then (releaseAll a.1 a.2.1).map fun l => (l, false)
  else
    let b := getAll (a.1 ++ [.tfilter]) fail [.lock, .readData, .writeData, .filter]
    if b.2.2 then some (b.1, true)
    else
      -- out_nomem of the raw allocation, then out_nomem of the caller
      (tfilterFree b.1 seq b.2.1).bind fun l => (releaseAll l a.2.1).map fun l => (l, false)

end Gensio.TelnetFilt
