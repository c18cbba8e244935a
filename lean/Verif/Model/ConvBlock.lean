import Verif.Model.Convcode

/-!
# Block functions of the convolutional coder and the convcode filter

Model of the block encoder and decoder of lib/convcode.c (:827-1006, :1752-1986) and of the filter in
lib/gensio_convcode.c.

Simplifications:
* The block decoder is modelled without puncturing, uncertainties and output uncertainties, as the filter uses it.
* In the filter, the auxiliary data is always NULL for received data (gensio_convcode.c:433-434), so `nbits=` and
  `uncert=` are never found, and out of band data cannot be recognised.
* The filter's `err` (set when the lower layer fails in `convcode_ul_write`, :221) is zero.
* Locks are left out; the handler of the upper layer is a function of what it is given.
-/

namespace Gensio.Convcode

/-! ### Block encoder -/

/-- The encoder with an output array: `enc_state`, `enc_puncture_pos`, the array, `outbytes` as an index and
`outbitpos`. -/
structure BEnc where
  state : Nat
  ppos : Nat
  buf : List UInt8
  idx : Nat
  pos : Nat
deriving Repr, DecidableEq

/-- `*outbytes |= x << outbitpos` on an `unsigned char`, :872, :892, :904; `none` is a write behind the array. -/
def orByte (buf : List UInt8) (idx x pos : Nat) : Option (List UInt8) :=
  match buf[idx]? with
  | none => none
  | some b => some (buf.set idx (UInt8.ofNat (b.toNat ||| (x <<< pos))))

/-- Going to the next byte when one is full, :873-878 and :905-910. -/
def BEnc.wrap (e : BEnc) : BEnc := if e.pos ≥ 8 then { e with idx := e.idx + 1, pos := 0 } else e

/-- The loop for punctured codes, :860-881. -/
def blockPunc (punc : List Bool) : Nat → Nat → BEnc → Option BEnc
  | 0, _, e => some e
  | left + 1, bits, e =>
    match punc[e.ppos]? with
    | none => none
    | some false => blockPunc punc left (bits >>> 1) { e with ppos := puncNext punc e.ppos }
    | some true =>
      match orByte e.buf e.idx (bits &&& 1) e.pos with
      | none => none
      | some buf =>
        blockPunc punc left (bits >>> 1)
          ({ e with ppos := puncNext punc e.ppos, buf := buf, pos := e.pos + 1 } : BEnc).wrap

/-- The loop for symbols that span bytes, :883-899, and the last byte, :901-910.  The loop is left out if `span` is
false. -/
def blockPut (span : Bool) (left bits : Nat) (e : BEnc) : Option BEnc :=
  if h : span = true ∧ 8 - e.pos < left ∧ e.pos < 8 then
    match orByte e.buf e.idx (bits &&& (2 ^ (8 - e.pos) - 1)) e.pos with
    | none => none
    | some buf => blockPut span (left - (8 - e.pos)) (bits >>> (8 - e.pos)) { e with buf := buf, idx := e.idx + 1, pos := 0 }
  else
    match orByte e.buf e.idx bits e.pos with
    | none => none
    | some buf => some ({ e with buf := buf, pos := e.pos + left } : BEnc).wrap
termination_by left
decreasing_by omega

/-- `convencode_block_bit`, :837-914. -/
def blockBit (c : Code) (punc : List Bool) (span : Bool) (e : BEnc) (b : Nat) : Option BEnc :=
  if punc = [] then blockPut span c.n (c.convert b e.state) { e with state := c.next b e.state }
  else blockPunc punc c.n (c.convert b e.state) { e with state := c.next b e.state }

/-- The bits of a byte in `convencode_block_partial_i`, :929-933 and :938-942. -/
def blockByte (c : Code) (punc : List Bool) (span : Bool) : Nat → Nat → BEnc → Option BEnc
  | 0, _, e => some e
  | n + 1, byte, e =>
    match blockBit c punc span e (byte &&& 1) with
    | none => none
    | some e => blockByte c punc span n (byte >>> 1) e

/-- `convencode_block_partial_i`, :916-944, and `convencode_block_partial`, :946-960. -/
def blockPartial (c : Code) (punc : List Bool) (span : Bool) : List UInt8 → Nat → BEnc → Option BEnc
  | [], nbits, e => if nbits = 0 then some e else none
  | b :: bs, nbits, e =>
    if 8 ≤ nbits then
      match blockByte c punc span 8 b.toNat e with
      | none => none
      | some e => blockPartial c punc span bs (nbits - 8) e
    else blockByte c punc span nbits b.toNat e

/-- `convencode_block_final`, :962-978. -/
def blockFinal (c : Code) (punc : List Bool) (span : Bool) : Nat → BEnc → Option BEnc
  | 0, e => some e
  | n + 1, e =>
    match blockBit c punc span e 0 with
    | none => none
    | some e => blockFinal c punc span n e

/-- `!optimize_no_span`, :454-455. -/
def Code.span (c : Code) : Bool := !(c.n == 2 || c.n == 4 || c.n == 8)

/-- `reinit_convencode` (:203-211) and `convencode_block` (:980-1006) into an array. -/
def encodeBlock (c : Code) (punc : List Bool) (bytes : List UInt8) (nbits : Nat) (buf : List UInt8) : Option BEnc :=
  match blockPartial c punc c.span bytes nbits ⟨0, 0, buf, 0, 0⟩ with
  | none => none
  | some e => blockFinal c punc c.span c.tailBits e

/-! ### Block decoder -/

/-- `outbytes[i / 8] |= bit << (i % 8)` for the bits from index `i` on, backwards_one_level :1776-1780.  The order of
the writes does not matter. -/
def orBits : List UInt8 → Nat → List Nat → Option (List UInt8)
  | buf, _, [] => some buf
  | buf, i, b :: bs =>
    match orByte buf (i / 8) b (i % 8) with
    | none => none
    | some buf => orBits buf (i + 1) bs

/-- `convdecode_block`, :1851-1986 with `get_min_pos`, :213-232, after `reinit_convdecode`, without uncertainties and puncturing.  Each symbol takes
a bit, so that the loop of `convdecode_data` ends within `nbits + 1` steps. -/
def decodeBlock (c : Code) (tsize : Nat) (bytes : List UInt8) (nbits : Nat) (buf : List UInt8) : Option (List UInt8) :=
  match decodeData c none [] tsize (nbits + 1) bytes [] nbits ⟨In.init, Dec.init⟩ with
  | none => none
  | some f =>
    match backLoop c.states f.dec.cols (minLoop f.dec.prev (c.states - 1) 1 0 (f.dec.prev 0)).1 [] with
    | none => none
    | some bits => orBits buf 0 (bits.take (f.dec.cols.length - c.tailBits))

/-! ### The filter -/

/-- `struct delivermsg`, gensio_convcode.c:27-32. -/
structure CMsg where
  data : List UInt8
  pos : Nat
  len : Nat
  bitlen : Nat
deriving Repr, DecidableEq

/-- The receiving part of `struct convcode_filter`, gensio_convcode.c:34-59: `msgs` has `MAX_READ_DELIVER_MSGS`
entries. -/
structure Rx where
  maxRead : Nat
  msgs : List CMsg
  num : Nat
  curr : Nat
deriving Repr, DecidableEq

/-- The filter as allocated, gensio_convcode_filter_raw_alloc :463-528; the arrays come from `zalloc`. -/
def Rx.init (maxRead : Nat) : Rx := ⟨maxRead, List.replicate 8 ⟨List.replicate maxRead 0, 0, 0, 0⟩, 0, 0⟩

/-- `trellis_size` as set up for the filter, :484-492 and convcode.c:466-467. -/
def trellisSize (c : Code) (maxRead : Nat) : Nat :=
  encodedSize (maxRead * 8) c.n c.k true [] + c.k * c.n

/-- The deliver part of `convcode_ll_write`, :311-334.  `h` is the handler: how many bytes it takes (`none` is an
error) of the bytes and number of bits it gets.  Result: the filter and what was given to the handler; the outer `none`
is an access behind `readmsgs`. -/
def Rx.deliver (h : List UInt8 → Nat → Option Nat) (f : Rx) : Option (Rx × List (List UInt8 × Nat)) :=
  if f.num = 0 then some (f, [])
  else
    match f.msgs[f.curr]? with
    | none => none
    | some d =>
      let out := (d.data.drop d.pos).take (d.len - d.pos)
      match h out d.bitlen with
      | none => some (f, [(out, d.bitlen)])
      | some count =>
        if count + d.pos ≥ d.len then
          some ({ f with msgs := f.msgs.set f.curr { d with len := 0 }, num := f.num - 1, curr := f.curr + 1 },
            [(out, d.bitlen)])
        else
          some ({ f with msgs := f.msgs.set f.curr { d with pos := d.pos + count, bitlen := d.bitlen - count * 8 } },
            [(out, d.bitlen)])

/-- `convcode_ll_write`, :240-339. -/
def Rx.llWrite (c : Code) (h : List UInt8 → Nat → Option Nat) (f : Rx) (buf : List UInt8) :
    Option (Rx × List (List UInt8 × Nat)) :=
  if f.num ≥ 8 ∨ buf = [] then f.deliver h
  else
    match encodedBits buf.length c.n c.k true with
    | none => f.deliver h
    | some nbits =>
      match decodedSize nbits c.n c.k true [] with
      | none => none
      | some none => f.deliver h
      | some (some ndec) =>
        let nbytes := u32 (ndec + 7) / 8
        if nbytes > f.maxRead then f.deliver h
        else
          match f.msgs[(f.curr + f.num) % 8]? with
          | none => none
          | some d =>
            match decodeBlock c (trellisSize c f.maxRead) buf nbits d.data with
            | none => none
            | some data =>
              ({ f with msgs := f.msgs.set ((f.curr + f.num) % 8) ⟨data, 0, nbytes, ndec⟩, num := f.num + 1 } : Rx).deliver h

/-- A sequence of `convcode_ll_write` calls. -/
def Rx.run (c : Code) (h : List UInt8 → Nat → Option Nat) : Rx → List (List UInt8) → Option (Rx × List (List UInt8 × Nat))
  | f, [] => some (f, [])
  | f, b :: bs =>
    match f.llWrite c h b with
    | none => none
    | some (f, o) =>
      match f.run c h bs with
      | none => none
      | some (f, o') => some (f, o ++ o')

/-- The encoding part of `convcode_ul_write`, :171-210, for a message without `nbits=`: what is given to the lower layer
(`len` bytes of the array), taking the zeroed part of the array as the array. -/
def txEncode (c : Code) (bytes : List UInt8) : Option (List UInt8) :=
  match encodeBlock c [] bytes (8 * bytes.length)
      (List.replicate (u32 (encodedSize (8 * bytes.length) c.n c.k true [] + 7) / 8) 0) with
  | none => none
  | some e => some e.buf

end Gensio.Convcode
