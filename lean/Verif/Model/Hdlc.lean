import Verif.Model.Crc
/-!
# Model of lib/gensio_hdlc.c

Locking, debug output and out-of-band data (ignored by the code, :791-796) are left out.
`gensiods` and the position counters are `Nat`; `uncertainty` and `nr_wrbufs` are `UInt32`
because they can wrap.  An access outside an allocation is the outcome `none`.
-/
namespace Gensio.Hdlc
open Gensio.Crc

/-- Configuration: `struct gensio_hdlc_data` as stored in `struct hdlc_filter`, :122-147.
`maxRead` is the stored value (configured value plus 2, :1019).  `axOk` stands for the call of
`decode_ax25_addr` (:597-604) when `checkAx25` is set. -/
structure Cfg where
  maxRead : Nat
  maxWrite : Nat
  pre : Nat
  post : Nat
  doCrc : Bool
  checkAx25 : Bool
  axOk : List UInt8 → Bool
  maxUnc : UInt32

/-! ### Sender -/

/-- `outbuf`, `pos`, `outbitpos`. -/
structure Out where
  buf : List UInt8
  pos : Nat
  bitPos : Nat
deriving DecidableEq, Repr

/-- `hdlc_add_out_bit`, :363-375. -/
def addBit (o : Out) (bit : Bool) : Option Out :=
  match o.buf[o.pos]? with
  | none => none
  | some v =>
    let buf := o.buf.set o.pos (v ||| ((if bit then 1 else 0) <<< UInt8.ofNat o.bitPos))
    if o.bitPos + 1 ≥ 8 then
      if o.pos + 1 < buf.length then some ⟨buf.set (o.pos + 1) 0, o.pos + 1, 0⟩ else none
    else some ⟨buf, o.pos, o.bitPos + 1⟩

/-- The stuffing test of `hdlc_add_out_byte`, :388-392. -/
def stuffBit (o : Out) (ones : Nat) : Option (Out × Nat) :=
  if ones = 5 then (addBit o false).map fun o => (o, 0) else some (o, ones)

/-- The loop of `hdlc_add_out_byte`, :387-401. -/
def addByteLoop (o : Out) (ones : Nat) (byte : UInt8) : Nat → Option (Out × Nat)
  | 0 => some (o, ones)
  | n + 1 => do
    let (o, ones) ← stuffBit o ones
    let bit := byte &&& 1 == 1
    let o ← addBit o bit
    addByteLoop o (if bit then ones + 1 else 0) (byte >>> 1) n

/-- `hdlc_add_out_byte`, :381-402, for each byte of the data and the CRC (:461-471). -/
def addBytes (o : Out) (ones : Nat) : List UInt8 → Option (Out × Nat)
  | [] => some (o, ones)
  | b :: bs => do
    let (o, ones) ← addByteLoop o ones b 8
    addBytes o ones bs

/-- `hdlc_add_out_byte_ns`, :404-417. -/
def addByteNs (o : Out) (byte : UInt8) : Nat → Option Out
  | 0 => some o
  | n + 1 => do
    let o ← addBit o (byte &&& 1 == 1)
    addByteNs o (byte >>> 1) n

/-- The postamble loop, :472-473. -/
def addFlags (o : Out) : Nat → Option Out
  | 0 => some o
  | n + 1 => do
    let o ← addByteNs o 0x7e 8
    addFlags o n

/-- `outbuf[i] = v`. -/
def setAt (buf : List UInt8) (i : Nat) (v : UInt8) : Option (List UInt8) :=
  if i < buf.length then some (buf.set i v) else none

/-- The preamble loop, :455-456. -/
def preLoop (buf : List UInt8) (pos : Nat) : Nat → Option (List UInt8)
  | 0 => some buf
  | n + 1 => do
    let buf ← setAt buf pos 0x7e
    preLoop buf (pos + 1) n

/-- What goes between the flags, :430-470. -/
def body (c : Cfg) (data : List UInt8) : List UInt8 := if c.doCrc then hdlcFrame data else data

/-- :454-473.  The pieces of the scatter/gather list are handled one after the other, so `data`
is their concatenation. -/
def encode (c : Cfg) (buf : List UInt8) (data : List UInt8) : Option Out := do
  let buf ← preLoop buf 0 c.pre
  let buf ← setAt buf c.pre 0
  let (o, _) ← addBytes ⟨buf, c.pre, 0⟩ 0 (body c data)
  addFlags o c.post

/-- `struct wrbuf`, :93-98. -/
structure WrBuf where
  data : List UInt8
  len : Nat := 0
  outpos : Nat := 0
  bitlen : Nat := 0
deriving DecidableEq, Repr

/-- Send fields of `struct hdlc_filter`, :145-149, and `err`. -/
structure Tx where
  bufs : List WrBuf
  cur : Nat := 0
  nr : UInt32 := 0
  err : Bool := false
deriving DecidableEq, Repr

/-- Size of a write buffer, :1050-1073. -/
def wrCap (c : Cfg) : Nat :=
  let wrsz := c.maxWrite + (if c.doCrc then 2 else 0)
  wrsz + ((wrsz * 8) / 5 + 7) / 8 + 1

/-- Send fields after `gensio_hdlc_filter_raw_alloc`. -/
def Tx.alloc (c : Cfg) : Tx :=
  { bufs := [{ data := List.replicate (wrCap c) 0 }, { data := List.replicate (wrCap c) 0 }] }

/-- `hdlc_handle_send`, :332-361.  The lower layer takes `acc` bytes or fails (`none`).  Result:
state, whether an error is returned, the bytes offered, the bit count offered and the bytes taken. -/
def handleSend (t : Tx) (acc : Option Nat) : Option (Tx × Bool × List UInt8 × Nat × Nat) := do
  let w ← t.bufs[t.cur]?
  let sg := (w.data.drop w.outpos).take (w.len - w.outpos)
  match acc with
  | none => some ({ t with err := true, nr := 0 }, true, sg, w.bitlen, 0)
  | some count =>
    if count + w.outpos ≥ w.len then
      some ({ t with cur := if t.cur + 1 ≥ 2 then 0 else t.cur + 1, nr := t.nr - 1 }, false, sg, w.bitlen, count)
    else
      some ({ t with bufs := t.bufs.set t.cur { w with outpos := w.outpos + count, bitlen := w.bitlen - count * 8 } },
        false, sg, w.bitlen, count)

/-- Queue a frame, :453-484. -/
def queueFrame (c : Cfg) (t : Tx) (data : List UInt8) : Option Tx := do
  let cbuf := (t.cur + t.nr.toNat) % 2
  let w ← t.bufs[cbuf]?
  let o ← encode c w.data data
  let w' : WrBuf := { data := o.buf, len := if o.bitPos > 0 then o.pos + 1 else o.pos, outpos := 0,
                      bitlen := o.pos * 8 + o.bitPos }
  some { t with bufs := t.bufs.set cbuf w', nr := t.nr + 1 }

/-- What a write reports. -/
inductive Res where
  | ok (count : Nat)
  | err
  | tooBig
deriving DecidableEq, Repr

/-- `hdlc_ul_write`, :419-494: state, result, and the lower layer call if one was made (bytes
offered, bit count, bytes taken). -/
def ulWrite (c : Cfg) (t : Tx) (data : List UInt8) (acc : Option Nat) :
    Option (Tx × Res × Option (List UInt8 × Nat × Nat)) :=
  if t.err then some (t, .err, none)
  else if t.nr ≥ 2 ∨ data = [] then do
    let (t, e, sg, nb, n) ← handleSend t acc
    some (t, if e then .err else .ok 0, some (sg, nb, n))
  else if data.length > c.maxWrite then some (t, .tooBig, none)
  else do
    let t ← queueFrame c t data
    let (t, e, sg, nb, n) ← handleSend t acc
    some (t, if e then .err else .ok data.length, some (sg, nb, n))

/-! ### Receiver -/

/-- `enum hdlc_state`, :50-69. -/
inductive St where
  | search0 | first0 | pre1 | last0 | inMsg | postLast0
deriving DecidableEq, Repr

/-- `struct wmsg`, :74-91; `rd` is `read_data[0 .. read_data_len]`. -/
structure W where
  inUse : Bool := false
  newW : Bool := false
  unc : UInt32 := 0
  ones : Nat := 0
  st : St := .search0
  cur : UInt8 := 0
  bitPos : Nat := 0
  rd : List UInt8 := []
deriving DecidableEq, Repr

/-- Receive fields of `struct hdlc_filter`, :126-142.  A slot of `delivermsgs` is its data and
`deliver_data_pos`. -/
structure Rx where
  ws : List W
  curW : Nat := 1
  gotFlag : Bool := false
  slots : List (List UInt8 × Nat) := List.replicate 8 ([], 0)
  dnum : Nat := 0
  dcur : Nat := 0
deriving DecidableEq, Repr

/-- After `gensio_hdlc_filter_raw_alloc`, :1031-1041 (`max_wmsgs` is not 0, :1129). -/
def Rx.alloc (maxW : Nat) : Rx :=
  { ws := { inUse := true, st := .first0 } :: List.replicate (maxW - 1) {} }

/-- `hdlc_deliver_data`, :496-512, of message `m`: a message too many is dropped. -/
def deliver (f : Rx) (m : List UInt8) : Rx :=
  if f.dnum < 8 then
    { f with slots := f.slots.set ((f.dcur + f.dnum) % 8) (m, 0), dnum := f.dnum + 1 }
  else f

/-- `hdlc_drop_wmsg`, :514-542, for the message `w` at index `i`. -/
def dropW (f : Rx) (i : Nat) (w : W) (atFlag : Bool) : Rx :=
  if atFlag && !f.gotFlag then
    { f with gotFlag := true, ws := f.ws.set i { w with rd := [], unc := 0 } }
  else if f.curW = 1 then
    { f with ws := f.ws.set i { w with rd := [], unc := 0, st := .search0 } }
  else { f with curW := f.curW - 1, ws := f.ws.set i { w with inUse := false } }

/-- `hdlc_handle_new_byte`, :544-558. -/
def newByte (c : Cfg) (f : Rx) (i : Nat) (w : W) : Rx :=
  if w.rd.length ≥ c.maxRead then dropW f i w false
  else { f with ws := f.ws.set i { w with rd := w.rd ++ [w.cur], cur := 0, bitPos := 0 } }

/-- The checks of `hdlc_handle_new_message`, :567-605: the message to deliver, if good. -/
def checkMsg (c : Cfg) (w : W) : Option (List UInt8) :=
  if w.rd.length < 3 then none
  else if w.bitPos ≠ 6 ∧ w.bitPos ≠ 5 then none
  else if c.doCrc then
    if hdlcCheck w.rd then
      let m := w.rd.take (w.rd.length - 2)
      if c.checkAx25 && (m.length < 16 || !c.axOk m) then none else some m
    else none
  else some w.rd

/-- `hdlc_handle_new_message`, :560-625. -/
def newMessage (c : Cfg) (f : Rx) (i : Nat) (w : W) : Rx :=
  match checkMsg c w with
  | some m =>
    let f := deliver { f with ws := f.ws.set i w } m
    { f with ws := f.ws.map fun w => { w with rd := [], unc := 0 } }
  | none => dropW f i w true

/-- The switch of `hdlc_process_bit_w`, :699-765, on message `w` at index `i`; `prev` is
`prev_num_rcv_1`. -/
def switch (c : Cfg) (f : Rx) (i : Nat) (w : W) (prev : Nat) (bit : Bool) : Rx :=
  let put (w : W) : Rx := { f with ws := f.ws.set i w }
  match w.st with
  | .search0 => put (if bit then w else { w with st := .first0 })
  | .first0 => put (if bit then { w with st := .pre1 } else w)
  | .pre1 =>
    put (if !bit then { w with st := .first0 } else if w.ones = 6 then { w with st := .last0 } else w)
  | .last0 => put (if bit then { w with st := .search0 } else { w with st := .inMsg, cur := 0, bitPos := 0 })
  | .inMsg =>
    if prev = 5 then put (if bit then { w with st := .postLast0 } else w)
    else
      let w := { w with cur := w.cur ||| ((if bit then 1 else 0) <<< UInt8.ofNat w.bitPos) }
      if w.bitPos = 7 then newByte c f i w else put { w with bitPos := w.bitPos + 1 }
  | .postLast0 =>
    if bit then dropW f i w false
    else
      let f := newMessage c f i w
      { f with ws := f.ws.modify i fun w => { w with st := .inMsg, cur := 0, bitPos := 0 } }

/-- `hdlc_process_bit_w` from :691 on (the part after the split). -/
def stepW (c : Cfg) (f : Rx) (i : Nat) (bit : Bool) : Rx :=
  match f.ws[i]? with
  | none => f
  | some w =>
    switch c f i { w with newW := false, ones := if bit then w.ones + 1 else 0 } w.ones bit

/-- The call of `hdlc_process_bit_w` made for a new message, :667: `new_wmsg` is set, so it
does not split again. -/
def processNew (c : Cfg) (f : Rx) (i : Nat) (bit : Bool) : Rx := stepW c f i bit

/-- First slot other than `n` that is not in use. -/
def freeSlot (ws : List W) (n : Nat) : Option Nat :=
  (List.range ws.length).find? fun i => i ≠ n && !((ws[i]?.map W.inUse).getD true)

/-- `max_uncert`, `max_uncert_pos` after the scan, :641-642 and :679-683. -/
def minUnc (ws : List W) (n : Nat) : UInt32 × Nat :=
  (List.range ws.length).foldl (fun r i =>
    match ws[i]? with
    | some w => if i ≠ n ∧ w.unc < r.1 then (w.unc, i) else r
    | none => r) (0xffffffff, 0)

/-- `add_wmsg_at`, :651-677: copy the message at `n` to slot `i`.  Returns the bit to process
for the message at `n`.  (The two assignments at :674-675 are in this order, which matters
when `i = n`.) -/
def addAt (c : Cfg) (f : Rx) (n i : Nat) (w : W) (bit : Bool) (thisU altU : UInt32) : Rx × Bool :=
  let f := { f with ws := f.ws.set i { w with inUse := true, unc := altU, newW := true }, curW := f.curW + 1 }
  if i < n then (processNew c f i (!bit), bit)
  else
    let f := { f with ws := f.ws.modify i fun w => { w with unc := thisU } }
    ({ f with ws := f.ws.modify n fun w => { w with unc := altU } }, !bit)

/-- The split, :636-697. -/
def split (c : Cfg) (f : Rx) (n : Nat) (w : W) (bit : Bool) (unc : UInt32) : Rx × Bool :=
  let thisU := w.unc + unc
  let altU := w.unc + 100 - unc
  let w := { w with unc := thisU }
  let f := { f with ws := f.ws.set n w }
  match freeSlot f.ws n with
  | some i => addAt c f n i w bit thisU altU
  | none =>
    let m := minUnc f.ws n
    if altU < m.1 then addAt c { f with curW := f.curW - 1 } n m.2 w bit thisU altU
    else (f, bit)

/-- `hdlc_process_bit_w`, :627-766. -/
def processW (c : Cfg) (f : Rx) (n : Nat) (bit : Bool) (unc : UInt32) : Rx :=
  match f.ws[n]? with
  | none => f
  | some w =>
    if !w.inUse then f
    else if unc > c.maxUnc ∧ w.newW = false then
      let r := split c f n w bit unc
      stepW c r.1 n r.2
    else stepW c f n bit

/-- `hdlc_process_bit`, :768-777. -/
def processBit (c : Cfg) (f : Rx) (bit : Bool) (unc : UInt32) : Rx :=
  (List.range f.ws.length).foldl (fun f i => processW c f i bit unc) { f with gotFlag := false }

/-- The inner loop, :818-823 and :830-834: `nbits` goes down with uncertainties, and up
without.  `u` gives the uncertainty of each bit; reading past the array is `none`. -/
def bitLoop (c : Cfg) (u : Option (List UInt8)) (f : Rx) (byte : UInt8) (i j nbits : Nat) :
    Nat → Option (Rx × Nat)
  | 0 => some (f, nbits)
  | n + 1 =>
    if nbits = 0 then some (f, nbits)
    else
      match u with
      | some l =>
        match l[i * 8 + j]? with
        | none => none
        | some x => bitLoop c u (processBit c f (byte &&& 1 == 1) x.toUInt32) (byte >>> 1) i (j + 1) (nbits - 1) n
      | none => bitLoop c u (processBit c f (byte &&& 1 == 1) 0) (byte >>> 1) i (j + 1) (nbits + 1) n

/-- The outer loop, :815 and :827. -/
def byteLoop (c : Cfg) (u : Option (List UInt8)) (f : Rx) (i nbits : Nat) : List UInt8 → Option Rx
  | [] => some f
  | b :: bs =>
    if nbits = 0 then some f
    else do
      let (f, nbits) ← bitLoop c u f b i 0 nbits 8
      byteLoop c u f (i + 1) nbits bs

/-- Offering a message to the upper layer, which takes `acc` bytes, :839-858: the bytes taken
and whether the message is finished. -/
def handUp (f : Rx) (acc : Nat) : Option (Rx × Option (List UInt8 × Bool)) :=
  if f.dnum > 0 then
    match f.slots[f.dcur]? with
    | none => none
    | some (d, pos) =>
      if acc + pos ≥ d.length then
        some ({ f with slots := f.slots.set f.dcur ([], pos), dnum := f.dnum - 1, dcur := f.dcur + 1 },
          some (d.drop pos, true))
      else some ({ f with slots := f.slots.set f.dcur (d, pos + acc) }, some ((d.drop pos).take acc, false))
  else some (f, none)

/-- `hdlc_ll_write`, :779-864, with the `nbits=` and `uncert=` auxiliary data. -/
def llWrite (c : Cfg) (f : Rx) (buf : List UInt8) (nbits : Option Nat) (u : Option (List UInt8)) (acc : Nat) :
    Option (Rx × Option (List UInt8 × Bool)) := do
  let f ← byteLoop c u f 0 (nbits.getD (buf.length * 8)) buf
  handUp f acc

end Gensio.Hdlc
