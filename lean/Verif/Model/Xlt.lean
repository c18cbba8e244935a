/-!
# Model of lib/gensio_xlt.c

The two directions (`xlt_ul_write`, :100-143, and `xlt_ll_write`, :145-180) are the same code on
different fields, so one definition models both: `buf` is `outbuf[0 .. outlen]` (`inbuf`), `tab`
the table.  The scatter/gather entries are handled one after the other, so `data` is their
concatenation.  Locking is left out.  Storing past the 256 byte buffer is the outcome `none`.
-/
namespace Gensio.Xlt

/-- Size of `inbuf` and `outbuf`, :37, :40. -/
abbrev cap : Nat := 256

/-- The copy loop, :113-118 (:158-159): fill the buffer while there is room and input. -/
def fill (tab : UInt8 → UInt8) (buf : List UInt8) : List UInt8 → Option (List UInt8)
  | [] => some buf
  | b :: rest =>
    if buf.length < cap then fill tab (buf ++ [tab b]) rest else some buf

/-- What the neighbour layer does when offered bytes: fail, or take a number of them. -/
abbrev Sink := Option Nat

/-- What a call reports: an error, or a count. -/
inductive Res where
  | err
  | ok (count : Nat)
deriving DecidableEq, Repr

/-- `xlt_ul_write`, :100-143 (`xlt_ll_write`, :145-180): new buffer contents, result, bytes the
neighbour took. -/
def write (tab : UInt8 → UInt8) (buf data : List UInt8) (sink : Sink) : Option (List UInt8 × Res × List UInt8) := do
  let buf ← fill tab buf data
  let pos := buf.length
  if buf.length > 0 then
    match sink with
    | none => some (buf, .err, [])
    | some count =>
      if count ≥ buf.length then some ([], .ok pos, buf)
      else some (buf.drop count, .ok pos, buf.take count)
  else some (buf, .ok pos, [])

/-! ### Configuration -/

/-- Decimal, octal and hexadecimal `strtoul(s, &end, 0)` are not modelled: a parsed pair of
numbers (`unsigned long`) stands for the string "v1:v2".  `process_xlt`, :264-279: the new table,
or `none` for GE_INVAL.  The second test is again on `v1` (:275); the store truncates `v2`. -/
def processXlt (tab : UInt8 → UInt8) (v1 v2 : Nat) : Option (UInt8 → UInt8) :=
  if v1 ≥ 256 then none
  else if v1 ≥ 256 then none
  else some (fun b => if b = UInt8.ofNat v1 then UInt8.ofNat v2 else tab b)

/-- One configuration argument, :297-334. -/
inductive Arg where
  | inx (v1 v2 : Nat)
  | outx (v1 v2 : Nat)
  | crlf (v : Bool)
  | lfcr (v : Bool)
  | crnl (v : Bool)
  | nlcr (v : Bool)
deriving Repr, DecidableEq

/-- `table[k] = v`. -/
def setT (t : UInt8 → UInt8) (k v : UInt8) : UInt8 → UInt8 := fun b => if b = k then v else t b

/-- The loop of `gensio_xlt_config`, :297-334: tables (in, out).  The value of the boolean
parameters is not looked at. -/
def config (t : (UInt8 → UInt8) × (UInt8 → UInt8)) : List Arg → Option ((UInt8 → UInt8) × (UInt8 → UInt8))
  | [] => some t
  | .inx a b :: as => do config (← processXlt t.1 a b, t.2) as
  | .outx a b :: as => do config (t.1, ← processXlt t.2 a b) as
  | .crlf _ :: as => config (setT t.1 13 10, setT t.2 10 13) as
  | .lfcr _ :: as => config (setT t.1 10 13, setT t.2 13 10) as
  | .crnl _ :: as => config (setT t.1 13 10, setT t.2 10 13) as
  | .nlcr _ :: as => config (setT t.1 10 13, setT t.2 13 10) as

/-- The tables before the arguments, :292-295. -/
def ident : (UInt8 → UInt8) × (UInt8 → UInt8) := (id, id)

end Gensio.Xlt
