/-!
# Convolutional coder and Viterbi decoder

Model of lib/convcode.c and lib/convcode.h: code tables, stream encoder with puncturing, size computations, hard
and soft decision decoder with the full trellis (`trellis_width` zero).

Simplifications:
* `unsigned int` values that cannot wrap under the bounds enforced elsewhere are natural numbers; path metrics and
  sizes wrap explicitly at 2^32.
* Arrays are functions from the index; every read that could be out of bounds is checked, and `none` stands for an out
  of bounds access, a failed `DEBUG_ASSERT` (enabled at :11) or a loop that does not end within the given fuel.
* Output functions never fail and collect what they are given.
* The reduced trellis (`trellis_width` below the number of states) and tail biting are not modelled.
* The `DO_SIMD` variant (:1249-1322, same values four at a time) is not modelled.
* Memory allocation succeeds.
-/

namespace Gensio.Convcode

/-- `unsigned int` arithmetic. -/
def u32 (n : Nat) : Nat := n % 2 ^ 32

/-! ### Tables -/

/-- The parameters of a code as passed to `setup_convcode1`, :399-470. -/
structure Code where
  k : Nat
  polys : List Nat
  recursive : Bool
  tail : Bool
deriving Repr, DecidableEq

/-- The checks of `setup_convcode1`, :407-410.  `convcode_state` values have 16 bits. -/
structure Code.Ok (c : Code) : Prop where
  polys1 : 1 ≤ c.polys.length
  polys8 : c.polys.length ≤ 8
  k3 : 3 ≤ c.k
  k16 : c.k ≤ 16

/-- `ce->num_polys`. -/
def Code.n (c : Code) : Nat := c.polys.length

/-- `ce->num_states`, :414. -/
def Code.states (c : Code) : Nat := 1 <<< (c.k - 1)

/-- `ce->tail_bits`, :419. -/
def Code.tailBits (c : Code) : Nat := if c.tail then c.k - 1 else 0

/-- The loop of `reverse_bits`, :315-326. -/
def reverseLoop : Nat → Nat → Nat → Nat
  | 0, _, rv => rv
  | n + 1, val, rv => reverseLoop n (val >>> 1) ((rv <<< 1) ||| (val &&& 1))

/-- `reverse_bits`, :315-326. -/
def reverseBits (k val : Nat) : Nat := reverseLoop k val 0

/-- `num_bits_set`, :328-344: the loop of the `#else` branch for an `unsigned int`, which is what
`__builtin_popcount` computes. -/
def popLoop : Nat → Nat → Nat
  | 0, _ => 0
  | n + 1, v => (v &&& 1) + popLoop n (v >>> 1)

/-- `num_bits_set`, :328-344. -/
def popcount (v : Nat) : Nat := popLoop 32 v

/-- `num_bits_is_odd`, :347-351. -/
def odd (v : Nat) : Nat := popcount v % 2

/-- `ce->polys`, :463-465. -/
def Code.rpolys (c : Code) : List Nat := c.polys.map (reverseBits c.k)

/-- `ce->polys[j]`. -/
def Code.rpoly (c : Code) (j : Nat) : Nat := c.rpolys.getD j 0

/-- The loops over the polynomials in `setup_convcode2`, :501-506 and :527-532, from index `j` on. -/
def convLoop (x : Nat) : List Nat → Nat → Nat → Nat
  | [], _, acc => acc
  | p :: ps, j, acc => convLoop x ps (j + 1) (acc ||| (odd (x &&& p) <<< j))

/-- The recursive bit, :521-522. -/
def Code.rbit (c : Code) (b i : Nat) : Nat := odd (((i <<< 1) ||| b) &&& c.rpoly 0)

/-- `ce->convert[b][i]`, setup_convcode2 :472-540. -/
def Code.convert (c : Code) (b i : Nat) : Nat :=
  if c.recursive then convLoop ((i <<< 1) ||| c.rbit b i) (c.rpolys.drop 1) 1 b
  else convLoop ((i <<< 1) ||| b) c.rpolys 0 0

/-- `ce->next_state[b][i]`, setup_convcode2 :472-540. -/
def Code.next (c : Code) (b i : Nat) : Nat :=
  if c.recursive then ((i <<< 1) ||| c.rbit b i) &&& (c.states - 1)
  else ((i <<< 1) ||| b) &&& (c.states - 1)

/-! ### Sizes -/

/-- The number of set entries of a puncture array, :78-81. -/
def ones (p : List Bool) : Nat := p.count true

/-- `convcode_encoded_size`, :67-98.  `punc = []` stands for a NULL puncture array. -/
def encodedSize (size n k : Nat) (tail : Bool) (punc : List Bool) : Nat :=
  let size := u32 (size * n)
  let size := if tail then u32 (size + u32 (n * (k - 1))) else size
  if punc = [] then size
  else u32 (size / punc.length * ones punc + ones (punc.take (size % punc.length)))

/-- The first loop of `convcode_decoded_size`, :115-119: `todo` kept bits still to be found from index `i` on.
`none` is a read behind the array. -/
def decLoop1 : List Bool → Nat → Nat → Nat → Option (Nat × Nat × List Bool)
  | p, 0, i, osize => some (i, osize, p)
  | [], _ + 1, _, _ => none
  | b :: p, todo + 1, i, osize => decLoop1 p (if b then todo else todo + 1) (i + 1) (osize + 1)

/-- The second loop of `convcode_decoded_size`, :124-127. -/
def decLoop2 (n : Nat) : List Bool → Nat → Nat
  | [], osize => osize
  | b :: p, osize => if osize % n ≠ 0 ∧ b = false then decLoop2 n p (osize + 1) else osize

/-- `convcode_decoded_size`, :100-143.  The outer `none` is a division by zero or an access behind the puncture
array, the inner `none` is the error return. -/
def decodedSize (size n k : Nat) (tail : Bool) (punc : List Bool) : Option (Option Nat) := do
  let size ← if punc = [] then some size else
    if ones punc = 0 then none
    else do
      let r ← decLoop1 punc (size % ones punc) 0 (size / ones punc * punc.length)
      some (decLoop2 n r.2.2 r.2.1)
  if size % n ≠ 0 then some none
  else
    let size := size / n
    some (some (if tail then u32 (size + 2 ^ 32 - (k - 1)) else size))

/-- `convcode_encoded_bits_from_encoded_bytes`, :145-196, without puncture array. -/
def encodedBits (nbytes n k : Nat) (tail : Bool) : Option Nat :=
  let size := u32 (nbytes * 8)
  let tsize := if tail then n * (k - 1) else 0
  if tail ∧ size < tsize then none
  else
    let nsyms := (size - tsize) / n
    let nsyms := nsyms - nsyms % 8
    some (encodedSize nsyms n k tail [])

/-! ### Encoder -/

/-- `struct convcode_outdata`, convcode.h; `sent` is what was passed to the output function. -/
structure Out where
  bits : Nat
  pos : Nat
  total : Nat
  sent : List (Nat × Nat)
deriving Repr, DecidableEq

/-- The loop of `output_bits`, :682-695. -/
def outLoop (o : Out) (bits len : Nat) : Out :=
  if h : 8 ≤ o.pos + len ∧ o.pos < 8 then
    let used := 8 - o.pos
    outLoop ⟨(bits >>> used) % 256, 0, u32 (o.total + used), o.sent ++ [(o.bits, 8)]⟩ (bits >>> used) (len - used)
  else { o with pos := o.pos + len, total := u32 (o.total + len) }
termination_by len
decreasing_by omega

/-- `output_bits`, :675-698. -/
def outputBits (o : Out) (bits len : Nat) : Out :=
  outLoop { o with bits := (o.bits ||| (bits <<< o.pos)) % 256 } bits len

/-- Advancing a position in the puncture array, :709-711, :866-868, :1553-1555. -/
def puncNext (punc : List Bool) (pos : Nat) : Nat := if pos + 1 ≥ punc.length then 0 else pos + 1

/-- `output_bits_puncture`, :700-720. -/
def outputPunc (punc : List Bool) : Nat → Out → Nat → Nat → Option (Out × Nat)
  | 0, o, ppos, _ => some (o, ppos)
  | len + 1, o, ppos, bits => do
    let p ← punc[ppos]?
    outputPunc punc len (if p then outputBits o (bits &&& 1) 1 else o) (puncNext punc ppos) (bits >>> 1)

/-- The encoder part of `struct convcode`. -/
structure Enc where
  state : Nat
  out : Out
  ppos : Nat
deriving Repr, DecidableEq

/-- `reinit_convencode`, :203-211. -/
def Enc.init : Enc := ⟨0, ⟨0, 0, 0, []⟩, 0⟩

/-- `convencode_bit`, :760-773, with the output function selected by `convcode_set_puncture`, :741-752. -/
def encodeBit (c : Code) (punc : List Bool) (e : Enc) (b : Nat) : Option Enc :=
  if punc = [] then some ⟨c.next b e.state, outputBits e.out (c.convert b e.state) c.n, e.ppos⟩
  else do
    let r ← outputPunc punc c.n e.out e.ppos (c.convert b e.state)
    some ⟨c.next b e.state, r.1, r.2⟩

/-- The bits `convencode_data` takes from a byte array (:784-791): the low bits of a byte first. -/
def byteLoop (c : Code) (punc : List Bool) : Nat → Nat → Enc → Option Enc
  | 0, _, e => some e
  | n + 1, byte, e => do
    let e ← encodeBit c punc e (byte &&& 1)
    byteLoop c punc n (byte >>> 1) e

/-- `convencode_data`, :775-806; `none` includes reading behind the byte array. -/
def encodeData (c : Code) (punc : List Bool) : List UInt8 → Nat → Enc → Option Enc
  | [], nbits, e => if nbits = 0 then some e else none
  | b :: bs, nbits, e =>
    if 8 ≤ nbits then do
      let e ← byteLoop c punc 8 b.toNat e
      encodeData c punc bs (nbits - 8) e
    else byteLoop c punc nbits b.toNat e

/-- The tail loop of `convencode_finish`, :813-817. -/
def tailLoop (c : Code) (punc : List Bool) : Nat → Enc → Option Enc
  | 0, e => some e
  | n + 1, e => do
    let e ← encodeBit c punc e 0
    tailLoop c punc n e

/-- `convencode_finish`, :808-825: everything passed to the output function and `total_out_bits`. -/
def encodeFinish (c : Code) (punc : List Bool) (e : Enc) : Option (List (Nat × Nat) × Nat) := do
  let e ← tailLoop c punc c.tailBits e
  some (if 0 < e.out.pos then e.out.sent ++ [(e.out.bits, e.out.pos)] else e.out.sent, e.out.total)

/-! ### Decoder -/

/-- `CONVCODE_PSTATE_SET_BIT`, convcode.h:59. -/
def setBit (v b : Nat) : Nat := v ||| (b <<< 15)
/-- `CONVCODE_PSTATE_VAL`, convcode.h:57. -/
def stVal (v : Nat) : Nat := v % 2 ^ 15
/-- `CONVCODE_PSTATE_BIT`, convcode.h:58. -/
def stBit (v : Nat) : Nat := v >>> 15

/-- A received symbol: its bits and, for soft decisions, one uncertainty per bit. -/
structure Sym where
  bits : Nat
  unc : List Nat
deriving Repr, DecidableEq

/-- Soft decision: `none`, or `some uncertainty_100`. -/
abbrev Soft := Option Nat

/-- The loop of `hamming_distance`, :1028-1036.  `ce->uncertainty_100 - uncertainty[i]` is an `int` added to an
`unsigned int`. -/
def softLoop (u100 : Nat) : Nat → Nat → Nat → List Nat → Nat → Option Nat
  | 0, _, _, _, rv => some rv
  | n + 1, v1, v2, us, rv => do
    let u ← us.head?
    softLoop u100 n (v1 >>> 1) (v2 >>> 1) us.tail
      (if v1 &&& 1 = v2 &&& 1 then u32 (rv + u) else u32 (rv + u100 + 2 ^ 32 - u))

/-- `hamming_distance`, :1019-1038. -/
def hamming (c : Code) (soft : Soft) (v : Nat) (s : Sym) : Option Nat :=
  match soft with
  | none => some (popcount (v ^^^ s.bits))
  | some u100 => softLoop u100 c.n v s.bits s.unc 0

/-- `get_prev_bit`, :1046-1068. -/
def prevBit (c : Code) (p i : Nat) : Nat :=
  if !c.recursive then i &&& 1
  else if c.next 0 p = i then 0 else 1

/-- `decode_one_state`, :1163-1210: the new path value and the trellis entry of state `i`. -/
def decodeOne (c : Code) (soft : Soft) (prev : Nat → Nat) (s : Sym) (i : Nat) : Option (Nat × Nat) :=
  let p1 := i >>> 1
  let p2 := p1 ||| (1 <<< (c.k - 2))
  let b1 := prevBit c p1 i
  let b2 := prevBit c p2 i
  if b1 < 2 ∧ p1 < c.states ∧ b2 < 2 ∧ p2 < c.states then do
    let h1 ← hamming c soft (c.convert b1 p1) s
    let h2 ← hamming c soft (c.convert b2 p2) s
    let d1 := u32 (prev p1 + h1)
    let d2 := u32 (prev p2 + h2)
    if d2 < d1 then some (d2, setBit p2 b2) else some (d1, setBit p1 b1)
  else none

/-- Array update. -/
def upd (f : Nat → Nat) (i v : Nat) : Nat → Nat := fun j => if j = i then v else f j

/-- The loop over the states of `convdecode_symbol_i`, :1333-1342: `n` states from `i` on. -/
def colLoop (f : Nat → Option (Nat × Nat)) : Nat → Nat → (Nat → Nat) → (Nat → Nat) →
    Option ((Nat → Nat) × (Nat → Nat))
  | 0, _, cur, trel => some (cur, trel)
  | n + 1, i, cur, trel => do
    let r ← f i
    colLoop f n (i + 1) (upd cur i r.1) (upd trel i r.2)

/-- The decoder part of `struct convcode` with the full trellis: the two path value arrays and the trellis
columns in use, the newest first (`ctrellis` is their number). -/
structure Dec where
  prev : Nat → Nat
  curr : Nat → Nat
  cols : List (Nat → Nat)

/-- `CONVCODE_DEFAULT_INIT_OTHER_STATES`, :201. -/
def initOther : Nat := 0xffffffff / 4

/-- `reinit_convdecode`, :236-283 without tail biting. -/
def Dec.init : Dec := ⟨fun i => if i = 0 then 0 else initOther, fun _ => 0, []⟩

/-- `convdecode_symbol_i`, :1221-1402, full trellis with `tsize` columns. -/
def decodeSym (c : Code) (soft : Soft) (tsize : Nat) (d : Dec) (s : Sym) : Option Dec :=
  if d.cols.length < tsize then do
    let r ← colLoop (decodeOne c soft d.prev s) c.states 0 d.curr (fun _ => 0)
    some ⟨r.1, d.prev, r.2 :: d.cols⟩
  else none

/-- A sequence of `convdecode_symbol` calls. -/
def decodeSyms (c : Code) (soft : Soft) (tsize : Nat) : List Sym → Dec → Option Dec
  | [], d => some d
  | s :: ss, d => do
    let d ← decodeSym c soft tsize d s
    decodeSyms c soft tsize ss d

/-- The search for the minimum, :225-229 and :1707-1712: `n` states from `i` on. -/
def minLoop (prev : Nat → Nat) : Nat → Nat → Nat → Nat → Nat × Nat
  | 0, _, cstate, m => (cstate, m)
  | n + 1, i, cstate, m => if prev i < m then minLoop prev n (i + 1) i (prev i) else minLoop prev n (i + 1) cstate m

/-- Going back through the trellis, :1715-1735; the bits are collected in `acc` instead of row 0 of the columns
already read. -/
def backLoop (width : Nat) : List (Nat → Nat) → Nat → List Nat → Option (List Nat)
  | [], _, acc => some acc
  | col :: cols, st, acc => if st < width then backLoop width cols (stVal (col st)) (stBit (col st) :: acc) else none

/-- `convdecode_finish`, :1669-1750, after the leftover bits are handled: the bits given to the output and
`num_errs`. -/
def decodeFinish (c : Code) (d : Dec) : Option (List Nat × Nat) :=
  if d.cols.length < c.tailBits then some ([], 0)
  else do
    let m := minLoop d.prev (c.states - 1) 1 0 (d.prev 0)
    let bits ← backLoop c.states d.cols m.1 []
    some (bits.take (d.cols.length - c.tailBits), m.2)

/-- All of the bits `convdecode_finish` finds, with those of the tail. -/
def decodePath (c : Code) (d : Dec) : Option (List Nat × Nat) := do
  let m := minLoop d.prev (c.states - 1) 1 0 (d.prev 0)
  let bits ← backLoop c.states d.cols m.1 []
  some (bits, m.2)

/-! ### Feeding bits to the decoder -/

/-- The input part of the decoder: leftover bits and their uncertainties, puncture position. -/
structure In where
  nleft : Nat
  left : Nat
  uleft : List Nat
  ppos : Nat
deriving Repr, DecidableEq

/-- `ce->leftover_bits = 0; ce->dec_puncture_pos = 0`, :279-280; `leftover_bits_data` is zero whenever
`leftover_bits` is. -/
def In.init : In := ⟨0, 0, [], 0⟩

/-- Bit `i` of a byte array, low bit first, :1541. -/
def getBit (bytes : List UInt8) (i : Nat) : Option Nat := (bytes[i / 8]?).map fun b => (b.toNat >>> (i % 8)) &&& 1

/-- Whether the next bit is a received one, :1533 and :1557; `none` is a read behind the puncture array. -/
def keptAt (punc : List Bool) (pp : Nat) : Option Bool := if punc = [] then some true else punc[pp]?

/-- The next puncture position, :1552-1556. -/
def puncStep (punc : List Bool) (pp : Nat) : Nat := if punc = [] then pp else puncNext punc pp

/-- Appending the uncertainty of a punctured bit, :1537-1539. -/
def usPunc : Soft → List Nat → List Nat
  | none, us => us
  | some u100, us => us ++ [u100 / 2]

/-- Appending the uncertainty of received bit `curr`, :1543-1545; `none` is a read behind the array. -/
def usIn : Soft → List Nat → List Nat → Nat → Option (List Nat)
  | none, us, _, _ => some us
  | some _, us, unc, curr => (unc[curr]?).map fun u => us ++ [u]

/-- The loop of `extract_sym`, :1533-1559: `todo` bits still needed, `opos` bits there.  Ends with the number of bits
in the symbol, the symbol, the uncertainties, the position in the input and in the puncture array. -/
def extractLoop (soft : Soft) (punc : List Bool) (bytes : List UInt8) (unc : List Nat) (size : Nat) :
    Nat → Nat → Nat → List Nat → Nat → Nat → Option (Nat × Nat × List Nat × Nat × Nat)
  | 0, opos, v, us, curr, pp => some (opos, v, us, curr, pp)
  | todo + 1, opos, v, us, curr, pp =>
    match keptAt punc pp with
    | none => none
    | some false => extractLoop soft punc bytes unc size todo (opos + 1) v (usPunc soft us) curr (puncStep punc pp)
    | some true =>
      if curr < size then
        match getBit bytes curr, usIn soft us unc curr with
        | some b, some us =>
          extractLoop soft punc bytes unc size todo (opos + 1) (v ||| (b <<< opos)) us (curr + 1) (puncStep punc pp)
        | _, _ => none
      else some (opos, v, us, curr, pp)

/-- `extract_sym`, :1505-1579. -/
def extractSym (c : Code) (soft : Soft) (punc : List Bool) (leftover : Bool) (bytes : List UInt8) (unc : List Nat)
    (size : Nat) (i : In) (curr : Nat) : Option (In × Nat × Option Sym) :=
  let opos := if leftover then i.nleft else 0
  let v := if leftover then i.left else 0
  let us := if leftover then i.uleft else []
  let i := if leftover then { i with nleft := 0, left := 0, uleft := [] } else i
  if leftover ∧ ¬ opos < c.n then none
  else do
    let (opos, v, us, curr, pp) ← extractLoop soft punc bytes unc size (c.n - opos) opos v us curr i.ppos
    if opos < c.n then some (⟨opos, v, us, pp⟩, curr, none)
    else some ({ i with ppos := pp }, curr, some ⟨v, us⟩)

/-- The loop of `convdecode_data` and `convdecode_data_u`, :1581-1667: the symbols fed to the decoder. -/
def dataLoop (c : Code) (soft : Soft) (punc : List Bool) (bytes : List UInt8) (unc : List Nat) (size : Nat) :
    Nat → In → Nat → List Sym → Option (In × List Sym)
  | 0, _, _, _ => none
  | fuel + 1, i, curr, acc => do
    let r ← extractSym c soft punc false bytes unc size i curr
    match r.2.2 with
    | none => some (r.1, acc)
    | some s => dataLoop c soft punc bytes unc size fuel r.1 r.2.1 (acc ++ [s])

/-- `convdecode_data` and `convdecode_data_u`, :1581-1667: the input state and the symbols fed to the decoder. -/
def symsOf (c : Code) (soft : Soft) (punc : List Bool) (fuel : Nat) (bytes : List UInt8) (unc : List Nat)
    (size : Nat) (i : In) : Option (In × List Sym) := do
  let r ← extractSym c soft punc true bytes unc size i 0
  match r.2.2 with
  | none => some (r.1, [])
  | some s => dataLoop c soft punc bytes unc size fuel r.1 r.2.1 [s]

/-- A whole decoder: input part and trellis part. -/
structure Full where
  inp : In
  dec : Dec

/-- `convdecode_data`, `convdecode_data_u`, :1581-1667. -/
def decodeData (c : Code) (soft : Soft) (punc : List Bool) (tsize fuel : Nat) (bytes : List UInt8) (unc : List Nat)
    (size : Nat) (f : Full) : Option Full := do
  let r ← symsOf c soft punc fuel bytes unc size f.inp
  let d ← decodeSyms c soft tsize r.2 f.dec
  some ⟨r.1, d⟩

/-- Filling up the last symbol in `convdecode_finish`, :1681-1697. -/
def fillLoop (c : Code) (soft : Soft) (punc : List Bool) (tsize : Nat) : Nat → Full → Option Full
  | 0, _ => none
  | fuel + 1, f =>
    if 0 < f.inp.nleft then do
      let f ← decodeData c soft punc tsize fuel [0] [50] 1 f
      fillLoop c soft punc tsize fuel f
    else some f

/-- `convdecode_finish`, :1669-1750. -/
def finish (c : Code) (soft : Soft) (punc : List Bool) (tsize fuel : Nat) (f : Full) : Option (List Nat × Nat) :=
  if f.dec.cols.length < c.tailBits then some ([], 0)
  else if punc = [] then decodeFinish c f.dec
  else do
    let f ← fillLoop c soft punc tsize fuel f
    decodeFinish c f.dec

/-- The output of the decoded bits in `convdecode_finish`, :1737-1747, with `output_bits` (:675-698) as output
function. -/
def decOut (bits : List Nat) : List (Nat × Nat) :=
  let o := bits.foldl (fun o b => outputBits o b 1) ⟨0, 0, 0, []⟩
  if 0 < o.pos then o.sent ++ [(o.bits, o.pos)] else o.sent

end Gensio.Convcode
