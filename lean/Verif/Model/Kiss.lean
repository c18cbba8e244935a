/-!
# Model of lib/gensio_kiss.c

`read_data` and `write_data` are the lists of the bytes held in them; a store past the
allocation is the outcome `none`.  Locking is left out, and so is the set-up string
(`setupstr_len` is taken to be 0, which leaves the set-up branch of `kiss_ul_write` dead).
-/
namespace Gensio.Kiss

/-- `struct kiss_config` (lib/gensio_kiss.c:20-34) as used by the data path, and the size of
`write_data` (:628).  `read_data` has `maxRead` bytes (:634). -/
structure Cfg where
  maxRead : Nat
  maxWrite : Nat
  wcap : Nat
  tncs : UInt8 → Bool

/-- Sizes set in `gensio_kiss_filter_alloc`, :628-638. -/
def Cfg.alloc (maxRead maxWrite : Nat) (tncs : UInt8 → Bool) : Cfg :=
  { maxRead, maxWrite, wcap := (maxWrite + 2) * 2 + 2, tncs }

/-! ### Receiver -/

/-- Receive fields of `struct kiss_filter`, :59-67.  `rd` is `read_data[read_data_pos ..]` of
length `read_data_len`; `started` is `read_data_pos ≠ 0`. -/
structure Rx where
  inEsc : Bool := false
  bad : Bool := false
  complete : Bool := false
  started : Bool := false
  tnc : UInt8 := 0
  rd : List UInt8 := []
deriving DecidableEq, Repr

/-- End of the loop body of `kiss_ll_write`, :328-332. -/
def store (c : Cfg) (s : Rx) (b : UInt8) : Rx :=
  if s.rd.length ≥ c.maxRead then { s with bad := true } else { s with rd := s.rd ++ [b] }

/-- The loop body of `kiss_ll_write`, :295-332.  (In a bad packet the byte is still stored,
within the limit.) -/
def rxByte (c : Cfg) (s : Rx) (b : UInt8) : Rx :=
  if b = 0xc0 then
    let s := { s with inEsc := false }
    if s.bad then { s with rd := [], bad := false }
    else if s.rd ≠ [] then { s with started := false, complete := true }
    else s
  else if s.bad then store c s b
  else if s.inEsc then
    let s := { s with inEsc := false }
    if b = 0xdc then store c s 0xc0
    else if b = 0xdd then store c s 0xdb
    else { s with bad := true }
  else if b = 0xdb then { s with inEsc := true }
  else store c s b

/-- `while (buflen && !in_msg_complete)`, :294. -/
def rxLoop (c : Cfg) (s : Rx) : List UInt8 → Rx × Nat
  | [] => (s, 0)
  | b :: rest =>
    if s.complete then (s, 0)
    else
      let r := rxLoop c (rxByte c s b) rest
      (r.1, r.2 + 1)

/-- First part of `kiss_ll_write`, :289-337. -/
def rxPart (c : Cfg) (s : Rx) (buf : List UInt8) : Rx × Nat :=
  if s.complete || buf.isEmpty then (s, 0) else rxLoop c s buf

/-- Start of the delivery, :344-357: look at the type byte and drop the packet or step over
it.  Reading `read_data[0]` of an empty packet is `none`. -/
def rxStart (c : Cfg) (s : Rx) : Option Rx :=
  if s.started then some s
  else
    match s.rd with
    | [] => none
    | h :: tl =>
      if h &&& 0xf ≠ 0 ∨ c.tncs (h >>> 4) = false then
        some { s with tnc := h >>> 4, complete := false, rd := [], inEsc := false }
      else some { s with tnc := h >>> 4, started := true, rd := tl }

/-- `kiss_ll_write`, :277-375, with an upper layer taking `acc` bytes: new state, bytes used,
what the upper layer took (port, bytes) and whether that finished the packet. -/
def llWrite (c : Cfg) (s : Rx) (buf : List UInt8) (acc : Nat) :
    Option (Rx × Nat × Option (UInt8 × List UInt8 × Bool)) := do
  let (s, n) := rxPart c s buf
  if s.complete then
    let s ← rxStart c s
    if !s.complete then some (s, n, none)
    else if acc ≥ s.rd.length then
      some ({ s with complete := false, rd := [], started := false }, n, some (s.tnc, s.rd, true))
    else some ({ s with rd := s.rd.drop acc }, n, some (s.tnc, s.rd.take acc, false))
  else some (s, n, none)

/-! ### Sender -/

/-- Send fields, :69-75. -/
structure Tx where
  wd : List UInt8 := []
  wpos : Nat := 0
  upos : Nat := 0
  ready : Bool := false
deriving DecidableEq, Repr

/-- `kfilter->write_data[kfilter->write_data_len++] = byte`. -/
def put (c : Cfg) (w : List UInt8) (b : UInt8) : Option (List UInt8) :=
  if w.length < c.wcap then some (w ++ [b]) else none

/-- `kiss_add_wrbyte`, :128-140. -/
def addByte (c : Cfg) (w : List UInt8) (b : UInt8) : Option (List UInt8) :=
  if b = 0xc0 then do
    let w ← put c w 0xdb
    put c w 0xdc
  else if b = 0xdb then do
    let w ← put c w 0xdb
    put c w 0xdd
  else put c w b

/-- The loops over the user's data, :222-236: bytes over the limit are skipped. -/
def addData (c : Cfg) (w : List UInt8) (upos : Nat) : List UInt8 → Option (List UInt8 × Nat)
  | [] => some (w, upos)
  | b :: bs =>
    if upos ≥ c.maxWrite then addData c w upos bs
    else do
      let w ← addByte c w b
      addData c w (upos + 1) bs

/-- Offering the packet to the lower layer, which takes `acc` bytes, :246-271. -/
def flush (t : Tx) (acc : Nat) : Tx × List UInt8 :=
  if t.ready then
    let rest := t.wd.drop t.wpos
    if acc ≥ rest.length then ({}, rest) else ({ t with wpos := t.wpos + acc }, rest.take acc)
  else (t, [])

/-- `kiss_ul_write`, :175-275, for a port accepted by the configuration, the lower layer taking
`acc` bytes: new state, count reported, bytes given to the lower layer. -/
def ulWrite (c : Cfg) (t : Tx) (tnc : UInt8) (data : List UInt8) (acc : Nat) :
    Option (Tx × Nat × List UInt8) :=
  if t.ready then
    let r := flush t acc
    some (r.1, 0, r.2)
  else do
    let w ← put c t.wd 0xc0
    let w ← addByte c w (tnc <<< 4)
    let (w, upos) ← addData c w t.upos data
    if upos > 0 then do
      let w ← put c w 0xc0
      let r := flush { t with wd := w, upos := upos, ready := true } acc
      some (r.1, data.length, r.2)
    else some ({ t with wd := w, upos := upos }, data.length, [])

/-! ### Start-up data -/

/-- The TNC parameters of `struct kiss_config`. -/
structure Parms where
  txdelay : Nat
  persist : Nat
  slotTime : Nat
  fullDuplex : Bool
  setHardware : Option Nat

/-- The bytes put in `startdata` for port `i`, :653-673. -/
def startBytes (p : Parms) (i : Nat) : List UInt8 :=
  [0xc0, UInt8.ofNat (i * 16 + 1), UInt8.ofNat ((p.txdelay + 5) / 10), 0xc0,
   0xc0, UInt8.ofNat (i * 16 + 2), UInt8.ofNat p.persist, 0xc0,
   0xc0, UInt8.ofNat (i * 16 + 3), UInt8.ofNat ((p.slotTime + 5) / 10), 0xc0,
   0xc0, UInt8.ofNat (i * 16 + 5), if p.fullDuplex then 1 else 0, 0xc0] ++
  match p.setHardware with
  | some h => [0xc0, UInt8.ofNat (i * 16 + 6), UInt8.ofNat h, 0xc0]
  | none => []

/-- `startdata[startdata_len++] = b` with the `unsigned char` index of :77-78. -/
def startPut (s : List UInt8 × UInt8) (b : UInt8) : List UInt8 × UInt8 :=
  (s.1.set s.2.toNat b, s.2 + 1)

/-- `startdata` and `startdata_len` after `gensio_kiss_filter_alloc`, :649-674 (client). -/
def startData (p : Parms) (tncs : UInt8 → Bool) : List UInt8 × UInt8 :=
  (((List.range 16).filter fun i => tncs (UInt8.ofNat i)).flatMap (startBytes p)).foldl startPut
    (List.replicate 320 0, 0)

/-- The loop of `kiss_try_connect`, :157-160. -/
def connect (c : Cfg) (sd : List UInt8 × UInt8) (t : Tx) : Option Tx := do
  let w ← (sd.1.take sd.2.toNat).foldlM (addByte c) t.wd
  some { t with wd := w, ready := t.ready || sd.2 > 0 }

end Gensio.Kiss
