/-!
# The mux gensio

Model of lib/gensio_mux.c: many channels over one byte stream.  Modelled are the two ring buffers of a channel, writing to
a channel, choosing and sending messages, receiving and handling messages, delivering data to the user, opening and closing
channels.

Simplifications:
 * Reference counts, freeing, tracing, locks and the log are left out.  Memory allocation succeeds.
 * Channels are named by their place in `Mux.chans`; channels are never removed from that list, but one taken out of the
   list of the mux has `linked = false`.
 * The number of a new channel is a parameter; how it is chosen is modelled in `Verif.Model.MuxId`.
 * The user's callbacks answer with the parameters of the operations and do not call back into the mux; calls made from a
   callback are operations that come afterwards.  So `in_read_report`, `in_newchannel` and `in_write_ready` are never seen
   set, and `chan_check_send_more` (:896-922), which only calls the user, does nothing.  A read callback does not return an
   error.
 * Received bytes are handled one at a time; the memcpy calls of `mux_child_read` are runs of such bytes.
 * Shutting down all channels after the connection failed (`mux_shutdown_channels`, :1878-1957) is left out: the mux just
   stays in `inClose`.
 * `none` is a failed assertion, an `abort()`, or an access outside a buffer.
-/

namespace Gensio.Mux

/-- `enum mux_inst_state`, lib/gensio_mux.c:160-189. -/
inductive CSt
  | closed | pendingOpen | inOpen | opened | inOpenClose | inClose | inRemClose | inCloseFinal
deriving Repr, DecidableEq

/-- `enum mux_state`, :358-399 (without `MUX_IN_ALLOC`). -/
inductive MSt
  | closed | waitChildOpen | uninit | waitOpen | inOpen | opened | inClose
deriving Repr, DecidableEq

/-- `gensio_u16_to_buf`, lib/utils.c:847-852, for a value that is first cut to 16 bits. -/
def be16 (n : Nat) : List UInt8 := [UInt8.ofNat (n / 256), UInt8.ofNat n]

/-- `gensio_u32_to_buf`, lib/utils.c:832-839. -/
def be32 (n : Nat) : List UInt8 :=
  [UInt8.ofNat (n / 16777216), UInt8.ofNat (n / 65536), UInt8.ofNat (n / 256), UInt8.ofNat n]

/-- `gensio_buf_to_u16` at `i` bytes into a buffer, lib/utils.c:841-845. -/
def rd16 (b : List UInt8) (i : Nat) : Nat := (b.getD i 0).toNat * 256 + (b.getD (i + 1) 0).toNat

/-- `gensio_buf_to_u32` at `i` bytes into a buffer, lib/utils.c:823-830. -/
def rd32 (b : List UInt8) (i : Nat) : Nat :=
  (b.getD i 0).toNat * 16777216 + (b.getD (i + 1) 0).toNat * 65536 + (b.getD (i + 2) 0).toNat * 256
    + (b.getD (i + 3) 0).toNat

/-- A ring buffer of a channel: `read_data`, `read_data_pos`, `read_data_len` (:212-215) or `write_data`, … (:223-226).
The size of the buffer is the length of `data`. -/
structure Ring where
  data : List UInt8
  pos : Nat := 0
  len : Nat := 0
deriving Repr, DecidableEq

/-- `chan_next_write_pos` and `chan_next_read_pos`, :267-275 and :305-313.  The sum is cut to 32 bits in C; sizes are taken
to be smaller than that. -/
def Ring.next (r : Ring) (count : Nat) : Nat :=
  if r.pos + count ≥ r.data.length then r.pos + count - r.data.length else r.pos + count

/-- `memcpy(buf + off, d, len)` into a buffer. -/
def blit (buf : List UInt8) (off : Nat) (d : List UInt8) : Option (List UInt8) :=
  if off + d.length ≤ buf.length then some (buf.take off ++ d ++ buf.drop (off + d.length)) else none

/-- `chan_addwrbuf` and `chan_addrdbuf`, :284-303 and :315-334. -/
def Ring.add (r : Ring) (d : List UInt8) : Option Ring :=
  let epos := if r.pos + r.len ≥ r.data.length then r.pos + r.len - r.data.length else r.pos + r.len
  if d.length + epos > r.data.length then
    let plen := r.data.length - epos
    match blit r.data epos (d.take plen) with
    | none => none
    | some data =>
      match blit data 0 (d.drop plen) with
      | none => none
      | some data => some { r with data := data, len := r.len + d.length }
  else
    match blit r.data epos d with
    | none => none
    | some data => some { r with data := data, len := r.len + d.length }

/-- A part of the message being sent: an entry of `sg`, :244, pointing into the header, the service string or the write
buffer. -/
inductive Seg
  | hdr (off len : Nat) | svc (off len : Nat) | ring (off len : Nat)
deriving Repr, DecidableEq

/-- A channel, `struct mux_inst`, :191-265.  `sg` holds the entries from `sgpos` to `sglen`.  `acc`, `rcv` and `calls` are
history: the messages taken from the user with their flags, the messages received with their flags, and the read callbacks
made (data offered, amount taken, whether "oob" and "eom" were given). -/
structure Chan where
  id : Nat
  remoteId : Nat := 0
  linked : Bool := true
  state : CSt := .closed
  err : Nat := 0
  sendNew : Bool := false
  sendClose : Bool := false
  closeSent : Bool := false
  doOob : Bool := false
  service : List UInt8 := []
  rd : Ring
  readEnabled : Bool := false
  recvUnacked : Nat := 0
  wr : Ring
  sentUnacked : Nat := 0
  window : Nat := 0
  hdr : List UInt8 := []
  sg : List Seg := []
  curLen : Nat := 0
  closeCalled : Bool := false
  wrReady : Bool := false
  inWrlist : Bool := false
  inOpenChan : Bool := false
  acc : List (UInt8 × List UInt8) := []
  rcv : List (UInt8 × List UInt8) := []
  calls : List (List UInt8 × Nat × Bool × Bool) := []
deriving Repr, DecidableEq

/-- A mux, `struct mux_data`, :414-495.  The message in `xmit_data` is `xmit`, of which `xmitPos` bytes are already sent.
`wrEn` is whether the write callback of the child is enabled.  `out` is history: all bytes the child took. -/
structure Mux where
  isClient : Bool
  maxRead : Nat
  maxWrite : Nat
  state : MSt := .closed
  xmit : List UInt8 := []
  xmitPos : Nat := 0
  sending : Option Nat := none
  chans : List Chan := []
  wrchans : List Nat := []
  openchans : List Nat := []
  opencount : Nat := 0
  nrNotClosed : Nat := 0
  inHdr : Bool := true
  hdr : List UInt8 := []
  hdrPos : Nat := 0
  hdrSize : Nat := 0
  msgid : Nat := 0
  dataPos : Nat := 0
  dataSize : Nat := 0
  curr : Option Nat := none
  wrEn : Bool := false
  out : List UInt8 := []
deriving Repr, DecidableEq

/-- Changing one channel. -/
def Mux.set (m : Mux) (i : Nat) (c : Chan) : Mux := { m with chans := m.chans.set i c }

/-- `MUX_FLAG_END_OF_MESSAGE` and `MUX_FLAG_OUT_OF_BOUND`, :147-149. -/
def eomFlag (f : UInt8) : Bool := f &&& 1 ≠ 0
def oobFlag (f : UInt8) : Bool := f &&& 2 ≠ 0

/-- `GE_REMCLOSE`, include/gensio/gensio_err.h:44. -/
def geRemClose : Nat := 26

/-- A new channel, the fields set by `mux_new_channel`, :1372-1417, with the number `id`. -/
def Mux.newChan (m : Mux) (id : Nat) : Chan :=
  { id := id, rd := { data := List.replicate m.maxRead 0 }, wr := { data := List.replicate m.maxWrite 0 } }

/-- `muxc_add_to_wrlist`, :1093-1106; `err_shutdown` is only set by `mux_shutdown_channels`, which is not modelled. -/
def Mux.addWr (m : Mux) (i : Nat) : Option Mux :=
  match m.chans[i]? with
  | none => none
  | some c =>
    if c.wrReady then some m
    else if c.inWrlist then none
    else some { m.set i { c with wrReady := true, inWrlist := true } with
                wrchans := m.wrchans ++ [i], wrEn := m.wrEn || decide (m.state ≠ .closed) }

/-! ## Writing -/

/-- How much of a write is taken, with the three bytes of the header, :1158-1184: the total and whether it is cut; `none`
if nothing is taken.  `tot` is the length with the header. -/
def room (c : Chan) (tot : Nat) : Option (Nat × Bool) :=
  if c.wr.data.length - c.wr.len < 4 then none
  else
    let t1 := if tot > c.wr.data.length - c.wr.len then (c.wr.data.length - c.wr.len, true) else (tot, false)
    if t1.1 > c.window / 2 then
      if c.window / 2 ≤ 3 then none else some (c.window / 2, true)
    else some t1

/-- Result of a write: an error code or the number of bytes taken. -/
inductive WrRes
  | notReady | error (e : Nat) | count (n : Nat)
deriving Repr, DecidableEq

/-- The loop of :1201-1208 that copies the pieces of the user's data. -/
def addSg (r : Ring) : List (List UInt8) → Nat → Option Ring
  | [], _ => some r
  | b :: sg, left =>
    if left = 0 then some r
    else
      match r.add (b.take left) with
      | none => none
      | some r => addSg r sg (left - min b.length left)

/-- The flags byte of a message, :1191-1195. -/
def mkFlags (eom oob : Bool) : UInt8 := (if eom then 1 else 0) ||| (if oob then 2 else 0)

/-- The end of `muxc_write`, :1190-1215, for `tot` bytes with the header. -/
def Mux.queue (m : Mux) (i : Nat) (c : Chan) (sg : List (List UInt8)) (flags : UInt8) (tot : Nat) : Option Mux :=
  match c.wr.add (flags :: be16 (tot - 3)) with
  | none => none
  | some r =>
    match addSg r sg (tot - 3) with
    | none => none
    | some r => (m.set i { c with wr := r, acc := c.acc ++ [(flags, sg.flatten.take (tot - 3))] }).addWr i

/-- `muxc_write`, :1108-1216; `sg` is the user's data, `eom` and `oob` whether these were given. -/
def Mux.write (m : Mux) (i : Nat) (sg : List (List UInt8)) (eom oob : Bool) : Option (Mux × WrRes) :=
  match m.chans[i]? with
  | none => none
  | some c =>
    if sg.flatten.length = 0 then some (m, .count 0)
    else if c.state ≠ .opened then some (m, .notReady)
    else if c.err ≠ 0 then some (m, .error c.err)
    else
      match room c (sg.flatten.length + 3) with
      | none => some (m, .count 0)
      | some (tot, trunc) =>
        match m.queue i c sg (mkFlags (!trunc && eom) oob) tot with
        | none => none
        | some m => some (m, .count (tot - 3))

/-! ## Choosing what to send -/

/-- `chan_setup_send_new_channel`, :1959-1978. -/
def Chan.setupNew (c : Chan) : Option Chan :=
  if c.sg ≠ [] then none
  else
    some { c with
      hdr := [0x22, 0] ++ be16 c.id ++ be32 c.rd.data.length ++ be16 c.service.length
      sg := if c.service.length = 0 then [.hdr 0 10] else [.hdr 0 10, .svc 0 c.service.length]
      sentUnacked := if c.service.length = 0 then c.sentUnacked else c.service.length
      curLen := 0 }

/-- `window_left` of `chan_setup_send_data`, :1985: an unsigned difference of 64 bits. -/
def Chan.windowLeft (c : Chan) : Nat :=
  if c.sentUnacked ≤ c.window then c.window - c.sentUnacked else c.window + 18446744073709551616 - c.sentUnacked

/-- The label `check_send_ack`, :1997-2005. -/
def Chan.setupAck (c : Chan) (hdr : List UInt8) : Chan × Bool :=
  if c.recvUnacked = 0 then ({ c with hdr := hdr }, false)
  else ({ c with hdr := hdr ++ be16 0, recvUnacked := 0, sg := [.hdr 0 10] }, true)

/-- The end of `chan_setup_send_data`, :2022-2043, for a message of `cl` bytes with its length. -/
def Chan.setupMsg (c : Chan) (cl : Nat) : Chan :=
  let pos := c.wr.next 1
  { c with
    recvUnacked := 0
    hdr := [0x52, c.wr.data.getD c.wr.pos 0] ++ be16 c.remoteId ++ be32 c.recvUnacked
    wr := { c.wr with pos := pos, len := c.wr.len - 1 }
    sg := if pos + cl > c.wr.data.length then
            [.hdr 0 8, .ring pos (c.wr.data.length - pos), .ring 0 (cl - (c.wr.data.length - pos))]
          else [.hdr 0 8, .ring pos cl]
    curLen := cl
    sentUnacked := c.sentUnacked + 1 + cl }

/-- `chan_setup_send_data`, :1980-2044. -/
def Chan.setupData (c : Chan) : Option (Chan × Bool) :=
  let hdr := [0x52, 0] ++ be16 c.remoteId ++ be32 c.recvUnacked
  if c.sg ≠ [] then none
  else if c.wr.len = 0 then some (c.setupAck hdr)
  else if c.wr.len ≤ 3 then none
  else
    let n := (c.wr.data.getD (c.wr.next 1) 0).toNat * 256 + (c.wr.data.getD (c.wr.next 2) 0).toNat
    if n = 0 then none
    else if n + 2 + 1 > c.windowLeft then some (({ c with curLen := 0 } : Chan).setupAck hdr)
    else some (c.setupMsg (n + 2), true)

/-- `chan_send_close`, :1242-1259, without the call of `muxc_add_to_wrlist`, which comes in `Mux.pickOne`. -/
def Chan.setupClose (c : Chan) : Option Chan :=
  if c.sg ≠ [] then none
  else
    some { c with
      hdr := [0x42, 0] ++ be16 c.remoteId ++ be16 (if c.err = geRemClose then 0 else c.err) ++ be16 0
      sg := [.hdr 0 8]
      curLen := 0 }

/-- One channel taken from the list of waiting channels, :2151-2186: `true` if it has something to send now. -/
def Mux.pickOne (m : Mux) (i : Nat) (c : Chan) : Option (Mux × Bool) :=
  if c.sendNew then
    match c.setupNew with
    | none => none
    | some c => some ({ m.set i { c with sendNew := false } with sending := some i }, true)
  else if (c.wr.len ≠ 0 ∨ c.recvUnacked ≠ 0) ∧ c.closeSent = false then
    match c.setupData with
    | none => none
    | some (c, true) => some ({ m.set i c with sending := some i }, true)
    | some (c, false) => some (m.set i { c with wrReady := false }, false)
  else if c.sendClose ∧ (c.rd.len = 0 ∨ c.state = .inClose ∨ c.state = .inCloseFinal) then
    match c.setupClose with
    | none => none
    | some c =>
      match (m.set i c).addWr i with
      | none => none
      | some m =>
        match m.chans[i]? with
        | none => none
        | some c => some ({ m.set i { c with sendClose := false, closeSent := true } with sending := some i }, true)
  else some (m.set i { c with wrReady := false }, false)

/-- The label `check_next_channel`, :2143-2188: the waiting channels `l` in turn. -/
def Mux.pick (m : Mux) : List Nat → Option Mux
  | [] => some { m with wrchans := [] }
  | i :: l =>
    match m.chans[i]? with
    | none => none
    | some c =>
      match ({ m.set i { c with inWrlist := false } with wrchans := l } : Mux).pickOne i { c with inWrlist := false } with
      | none => none
      | some (m, true) => some m
      | some (m, false) => m.pick l

/-! ## Sending -/

/-- The bytes of an entry. -/
def Chan.segBytes (c : Chan) : Seg → List UInt8
  | .hdr off len => (c.hdr.drop off).take len
  | .svc off len => (c.service.drop off).take len
  | .ring off len => (c.wr.data.drop off).take len

/-- What is left to send of the message of a channel. -/
def Chan.pend (c : Chan) : List UInt8 := c.sg.flatMap c.segBytes

def Seg.len : Seg → Nat
  | .hdr _ l => l
  | .svc _ l => l
  | .ring _ l => l

def Seg.skip (n : Nat) : Seg → Seg
  | .hdr o l => .hdr (o + n) (l - n)
  | .svc o l => .svc (o + n) (l - n)
  | .ring o l => .ring (o + n) (l - n)

/-- The loop of :2083-2094 that moves over what was sent. -/
def advance : List Seg → Nat → List Seg
  | [], _ => []
  | s :: sg, n => if n = 0 then s :: sg else if s.len ≤ n then advance sg (n - s.len) else s.skip n :: sg

/-- A message is sent completely, :2095-2115. -/
def Mux.sentAll (m : Mux) (i : Nat) (c : Chan) : Mux :=
  let c := { c with
    wr := { c.wr with
      pos := c.wr.next c.curLen
      len := if c.curLen ≤ c.wr.len then c.wr.len - c.curLen else c.wr.len + 18446744073709551616 - c.curLen }
    curLen := 0, sg := [] }
  if c.wr.len > 0 ∨ c.sendNew ∨ c.sendClose then
    { m.set i { c with inWrlist := true } with sending := none, wrchans := m.wrchans ++ [i] }
  else { m.set i { c with wrReady := false } with sending := none }

/-- The child takes `n` bytes of the message of channel `i`, :2077-2119; `none` if the assertion fails. -/
def Mux.sendPart (m : Mux) (i : Nat) (n : Nat) : Option Mux :=
  match m.chans[i]? with
  | none => none
  | some c =>
    if c.sg = [] then none
    else
      let m := { m with out := m.out ++ c.pend.take n }
      let c := { c with sg := advance c.sg n }
      if c.sg = [] then some (m.sentAll i c) else some (m.set i c)

/-- The child takes `n` bytes of `xmit_data`, :2123-2140. -/
def Mux.sendXmit (m : Mux) (n : Nat) : Mux :=
  let left := m.xmit.drop m.xmitPos
  if n ≥ left.length then { m with out := m.out ++ left, xmit := [], xmitPos := 0 }
  else { m with out := m.out ++ left.take n, xmitPos := m.xmitPos + n }

/-- Is the mux free to choose another channel? -/
def Mux.idle (m : Mux) : Bool := m.sending.isNone && m.xmit.isEmpty

/-- The label `out`, :2189-2193. -/
def Mux.endWrite (m : Mux) : Mux := { m with wrEn := m.sending.isSome || !m.wrchans.isEmpty }

/-- `out_write_err`, :2195-2205. -/
def Mux.fail (m : Mux) : Mux := { m with state := .inClose, wrEn := false }

/-- The writes of `mux_child_write_ready` until the child takes less than offered.  `ans` says how many bytes the child
takes each time, `none` an error; when `ans` is at its end the child takes nothing. -/
def Mux.flush (m : Mux) : List (Option Nat) → Option Mux
  | [] =>
    match (if m.idle then m.pick m.wrchans else some m) with
    | none => none
    | some m => some m.endWrite
  | a :: ans =>
    match (if m.idle then m.pick m.wrchans else some m) with
    | none => none
    | some m =>
      match m.sending with
      | some i =>
        match a with
        | none => some m.fail
        | some n =>
          match m.sendPart i n with
          | none => none
          | some m => if m.sending.isNone then m.flush ans else some m.endWrite
      | none =>
        if m.xmit.isEmpty then some m.endWrite
        else
          match a with
          | none => some m.fail
          | some n => if n ≥ (m.xmit.drop m.xmitPos).length then (m.sendXmit n).flush ans else some (m.sendXmit n).endWrite

/-- `mux_child_write_ready`, :2059-2206. -/
def Mux.writeReady (m : Mux) (ans : List (Option Nat)) : Option Mux :=
  if m.state = .inClose ∨ m.state = .closed then some { m with wrEn := false } else m.flush ans

/-! ## Delivering received data -/

/-- What the user answers to a read callback: how much it takes and whether reading stays enabled. -/
abbrev Ans := Nat × Bool

/-- `full_msg_ready`, :924-941: the length of the first message, and whether all of it is there. -/
def Chan.fullMsg (c : Chan) : Option (Nat × Bool) :=
  if c.rd.len = 0 then some (0, false)
  else if c.rd.len < 3 then none
  else
    let n := (c.rd.data.getD (c.rd.next 1) 0).toNat * 256 + (c.rd.data.getD (c.rd.next 2) 0).toNat
    if n = 0 then none else some (n, decide (n + 3 ≤ c.rd.len))

/-- One read callback with `n` bytes at `pos`, :994-995 or :1018-1019; the amount taken is cut as in :1001-1002 and
:1025-1026. -/
def Chan.callback (c : Chan) (pos n : Nat) (oob eom : Bool) (a : Ans) : Chan × Nat :=
  ({ c with readEnabled := a.2, calls := c.calls ++ [((c.rd.data.drop pos).take n, min a.1 n, oob, eom)] }, min a.1 n)

/-- The label `after_read_done`, :1030-1045: `olen` bytes of the first message were used, `len` are left. -/
def Chan.afterRead (c : Chan) (flags : UInt8) (len olen : Nat) : Chan :=
  if len > 0 then
    let r := { c.rd with pos := c.rd.next olen, len := c.rd.len - olen }
    { c with
      rd := { r with data := ((r.data.set r.pos flags).set (r.next 1) (UInt8.ofNat (len / 256))).set (r.next 2)
                               (UInt8.ofNat len) }
      recvUnacked := c.recvUnacked + olen }
  else
    { c with rd := { c.rd with pos := c.rd.next (olen + 3), len := c.rd.len - (olen + 3) }
             recvUnacked := c.recvUnacked + olen + 3 }

/-- The second callback for a message, :1012-1029: `len` bytes at `pos`, of which `olen` are already used. -/
def Chan.deliver2 (c : Chan) (flags : UInt8) (oob : Bool) (pos len olen : Nat) (a : Ans) : Chan :=
  let (c, n) := c.callback pos len oob (eomFlag flags) a
  c.afterRead flags (len - n) (olen + n)

/-- A callback that takes nothing and disables reading, for when no answers are left. -/
def popAns : List Ans → Ans × List Ans
  | [] => ((0, false), [])
  | a :: as => (a, as)

/-- Delivery of a complete message of `len` bytes, the body of the loop of :957-1046. -/
def Chan.deliver (c : Chan) (len : Nat) (ans : List Ans) : Chan × List Ans :=
  let flags := c.rd.data.getD c.rd.pos 0
  let pos := c.rd.next 3
  if oobFlag flags && !c.doOob then
    let (a, ans) := popAns ans
    (c.deliver2 flags false 0 0 len a, ans)
  else if pos + len > c.rd.data.length then
    let (a, ans) := popAns ans
    let k := c.rd.data.length - pos
    let (c, n) := c.callback pos k (oobFlag flags) false a
    if n < k ∨ c.readEnabled = false then (c.afterRead flags (len - n) n, ans)
    else
      let (a, ans) := popAns ans
      (c.deliver2 flags (oobFlag flags) 0 (len - n) n a, ans)
  else
    let (a, ans) := popAns ans
    (c.deliver2 flags (oobFlag flags) pos len 0 a, ans)

/-- The loop of `chan_check_read`, :957-1046, with `fuel` rounds; the loop ends because the answers do. -/
def Chan.readLoop (c : Chan) : Nat → List Ans → Option Chan
  | 0, _ => some c
  | fuel + 1, ans =>
    match c.fullMsg with
    | none => none
    | some (len, full) =>
      if c.readEnabled = false then some c
      else if full then
        let (c, ans) := c.deliver len ans
        c.readLoop fuel ans
      else if c.err ≠ 0 then some { c with readEnabled := false }
      else some c

/-- `chan_check_read`, :946-1056. -/
def Mux.checkRead (m : Mux) (i : Nat) (ans : List Ans) : Option Mux :=
  match m.chans[i]? with
  | none => none
  | some c =>
    match c.readLoop (ans.length + 2) ans with
    | none => none
    | some c =>
      if c.recvUnacked ≠ 0 ∨ (c.sendClose ∧ c.rd.len = 0) then (m.set i c).addWr i else some (m.set i c)

/-! ## Receiving -/

/-- `mux_send_new_channel_rsp`, :866-880. -/
def Mux.sendRsp (m : Mux) (remote maxRead id err : Nat) : Mux :=
  { m with xmit := [0x33, 0] ++ be16 remote ++ be32 maxRead ++ be16 id ++ be16 err, xmitPos := 0, wrEn := true }

/-- What comes with a received byte: the answers of read callbacks, the number for a new channel (`none` if there is none
left), and the answer of the new channel event (0 to accept, otherwise an error). -/
structure Env where
  reads : List Ans := []
  newId : Option Nat := none
  newErr : Nat := 0
deriving Repr, DecidableEq

/-- `mux_get_channel`, :2208-2221. -/
def Mux.find (m : Mux) (id : Nat) : Option Nat := m.chans.findIdx? (fun c => c.linked && c.id == id)

/-- `mux_find_remote_id`, :2223-2239. -/
def Mux.hasRemote (m : Mux) (id : Nat) : Bool :=
  m.chans.any (fun c => c.linked && c.remoteId == id && decide (c.state ≠ .pendingOpen) && decide (c.state ≠ .inOpen)
    && decide (c.state ≠ .inOpenClose) && decide (c.state ≠ .inCloseFinal))

/-- The labels `protocol_err` and `out_err`, :2694-2708. -/
def Mux.proto (m : Mux) : Mux := { m with state := .inClose, wrEn := false }

/-- The label `next_channel_req_send`, :2414-2426. -/
def Mux.nextReq (m : Mux) : Option Mux :=
  match m.openchans with
  | i :: l =>
    match m.chans[i]? with
    | none => none
    | some c => (({ m with openchans := l } : Mux).set i { c with inOpenChan := false }).addWr i
  | [] => if m.opencount = 0 then some m else none

/-- Message `MUX_INIT`, :2309-2322. -/
def Mux.onInit (m : Mux) : Option Mux :=
  if m.state ≠ .uninit then some m.proto
  else if m.openchans.isEmpty then some { m with state := .waitOpen }
  else ({ m with state := .inOpen } : Mux).nextReq

/-- The number of `mux_chan0` in the list of channels: the first one, :755-760. -/
def Mux.chan0 (m : Mux) : Option Nat := m.chans.findIdx? (fun c => c.linked)

/-- Message `MUX_NEW_CHANNEL`, :2330-2364. -/
def Mux.onNew (m : Mux) (e : Env) : Option Mux :=
  let remote := rd16 m.hdr 2
  let window := rd32 m.hdr 4
  if m.state = .waitOpen then
    match m.chan0 with
    | none => none
    | some i =>
      match m.chans[i]? with
      | none => none
      | some c =>
        let m := { m.set i { c with state := .pendingOpen, window := window } with curr := some i }
        if window ≤ 128 then some m.proto
        else some { m.set i { c with state := .pendingOpen, window := window, remoteId := remote } with
                    dataPos := 0, inHdr := false }
  else if m.hasRemote remote then some m.proto
  else
    match e.newId with
    | none => some { m with curr := none }
    | some id =>
      let c := { m.newChan id with state := .pendingOpen, window := window }
      if window ≤ 128 then
        some { m with chans := m.chans ++ [{ c with linked := false }], nrNotClosed := m.nrNotClosed + 1,
                      curr := none }.proto
      else
        some { m with chans := m.chans ++ [{ c with remoteId := remote }], nrNotClosed := m.nrNotClosed + 1,
                      curr := some m.chans.length, dataPos := 0, inHdr := false }

/-- Message `MUX_NEW_CHANNEL_RSP`, :2366-2437.  `i_finish_close_close_done` for a refused channel that is being closed
puts the mux in `closed`, :2402-2403. -/
def Mux.onRsp (m : Mux) : Option Mux :=
  match m.find (rd16 m.hdr 2) with
  | none => some m.proto
  | some i =>
    match m.chans[i]? with
    | none => none
    | some c =>
      if c.state ≠ .inOpen ∧ c.state ≠ .inOpenClose then some m.proto
      else if m.state ≠ .inOpen ∧ m.state ≠ .opened then some m.proto
      else
        let m := { m with state := .opened }
        let c' := { c with remoteId := rd16 m.hdr 8, window := rd32 m.hdr 4 }
        if rd32 m.hdr 4 ≤ 128 then some (m.set i c').proto
        else if m.opencount = 0 then none
        else
          let m := { m with sending := none, opencount := m.opencount - 1 }
          let e := rd16 m.hdr 10
          if e ≠ 0 then
            ({ m.set i { c' with err := e, state := .closed } with
               state := if c.state = .inOpenClose then .closed else m.state } : Mux).nextReq
          else if c.state = .inOpenClose then
            match (m.set i { c' with err := 0, state := .inClose, sendClose := true }).addWr i with
            | none => none
            | some m => m.nextReq
          else (m.set i { c' with err := 0, state := .opened }).nextReq

/-- Message `MUX_CLOSE_CHANNEL`, :2439-2464. -/
def Mux.onClose (m : Mux) : Option Mux :=
  match m.find (rd16 m.hdr 2) with
  | none => some m.proto
  | some i =>
    match m.chans[i]? with
    | none => none
    | some c =>
      if c.state = .closed ∨ c.state = .inOpen ∨ c.state = .inOpenClose ∨ c.state = .inCloseFinal
          ∨ c.state = .inRemClose then some m.proto
      else
        let e := rd16 m.hdr 4
        if c.state = .inClose then
          some (m.set i { c with err := e, state := .inCloseFinal, wr := { c.wr with len := 0 } })
        else
          (m.set i { c with err := if e = 0 then geRemClose else e, state := .inRemClose, sendClose := true,
                            wr := { c.wr with len := 0 } }).addWr i

/-- Message `MUX_DATA`, :2466-2491. -/
def Mux.onData (m : Mux) : Option Mux :=
  match m.find (rd16 m.hdr 2) with
  | none => some m.proto
  | some i =>
    match m.chans[i]? with
    | none => none
    | some c =>
      if c.state = .closed ∨ c.state = .inOpen ∨ c.state = .inOpenClose ∨ c.state = .inCloseFinal
          ∨ c.state = .inRemClose then some m.proto
      else
        let acked := rd32 m.hdr 4
        if acked > c.sentUnacked then some m.proto
        else
          let m := { m.set i { c with sentUnacked := c.sentUnacked - acked } with
                     curr := some i, dataPos := 0, inHdr := false }
          if acked > 0 ∧ c.wr.len ≠ 0 then m.addWr i else some m

/-- A complete header, :2304-2495.  `hdr_pos` is set back to 0 first, :2307. -/
def Mux.onHdr (m : Mux) (e : Env) : Option Mux :=
  let m := { m with hdrPos := 0 }
  if m.msgid = 1 then m.onInit
  else if m.state = .uninit then some m.proto
  else if m.msgid = 2 then m.onNew e
  else if m.msgid = 3 then m.onRsp
  else if m.msgid = 4 then m.onClose
  else if m.msgid = 5 then m.onData
  else none

/-- `mux_msg_hdr_sizes`, :145. -/
def hdrWords : List Nat := [0, 1, 2, 3, 2, 2]

/-- A byte of a header, :2268-2307. -/
def Mux.rxHdr (m : Mux) (b : UInt8) (e : Env) : Option Mux :=
  if m.hdrPos = 0 then
    let size := (b.toNat % 16) * 4
    let msgid := b.toNat / 16
    let m := { m with hdr := m.hdr.set 0 b, hdrPos := 1, hdrSize := size }
    if size > 12 then some m.proto
    else if msgid = 0 ∨ msgid > 5 then some { m with msgid := msgid }.proto
    else if hdrWords.getD msgid 0 > size then some { m with msgid := msgid }.proto
    else some { m with msgid := msgid }
  else if 1 + m.hdrPos < m.hdrSize then some { m with hdr := m.hdr.set m.hdrPos b, hdrPos := m.hdrPos + 1 }
  else ({ m with hdr := m.hdr.set m.hdrPos b } : Mux).onHdr e

/-- The label `new_chan_no_service`, :2581-2651: the service string is complete. -/
def Mux.newDone (m : Mux) (i : Nat) (c : Chan) (e : Env) : Option Mux :=
  if m.state = .waitOpen then
    some { ({ m.set i { c with state := .opened } with state := .opened } : Mux).sendRsp c.remoteId c.rd.data.length c.id 0
           with inHdr := true }
  else if !m.xmit.isEmpty then some { m.set i { c with state := .opened, linked := false } with curr := none }.proto
  else if e.newErr ≠ 0 then
    some { (m.set i { c with state := .closed }).sendRsp c.remoteId c.rd.data.length c.id e.newErr with inHdr := true }
  else if c.service.length ≠ 0 then
    match ((m.set i { c with state := .opened, recvUnacked := c.service.length }).sendRsp c.remoteId c.rd.data.length c.id
            0).addWr i with
    | none => none
    | some m => some { m with inHdr := true }
  else some { (m.set i { c with state := .opened }).sendRsp c.remoteId c.rd.data.length c.id 0 with inHdr := true }

/-- The label `handle_read_no_data`, :2665-2671. -/
def Mux.dataDone (m : Mux) (i : Nat) (e : Env) : Option Mux :=
  match (if m.dataSize ≠ 0 then m.checkRead i e.reads else some m) with
  | none => none
  | some m => some { m with inHdr := true }

/-- The second byte of the length, :2512-2552. -/
def Mux.rxLen (m : Mux) (b : UInt8) (e : Env) : Option Mux :=
  let size := m.dataSize + b.toNat
  let m := { m with dataSize := size, dataPos := 2 }
  match m.curr with
  | none => none
  | some i =>
    match m.chans[i]? with
    | none => none
    | some c =>
      if m.msgid = 2 then
        if size = 0 then ({ m.set i { c with service := [] } with } : Mux).newDone i { c with service := [] } e
        else some (m.set i { c with service := [] })
      else if m.msgid = 5 then
        if size = 0 then m.dataDone i e
        else if c.rd.data.length - c.rd.len < size + 3 then some m.proto
        else
          match c.rd.add (m.hdr.getD 1 0 :: be16 size) with
          | none => none
          | some r => some (m.set i { c with rd := r, rcv := c.rcv ++ [(m.hdr.getD 1 0, [])] })
      else none

/-- Adding a received byte to the last message of the history. -/
def addLast (l : List (UInt8 × List UInt8)) (b : UInt8) : List (UInt8 × List UInt8) :=
  match l.getLast? with
  | none => []
  | some (f, d) => l.dropLast ++ [(f, d ++ [b])]

/-- A byte of the service string or of the data, :2554-2676.  A byte behind the allocated service string is memory
corruption. -/
def Mux.rxBody (m : Mux) (b : UInt8) (e : Env) : Option Mux :=
  match m.curr with
  | none => none
  | some i =>
    match m.chans[i]? with
    | none => none
    | some c =>
      if m.msgid = 2 then
        if c.service.length ≥ m.dataSize then none
        else
        let c := { c with service := c.service ++ [b] }
        if 1 + m.dataPos - 2 < m.dataSize then some { m.set i c with dataPos := m.dataPos + 1 }
        else (m.set i c).newDone i c e
      else if m.msgid = 5 then
        match c.rd.add [b] with
        | none => none
        | some r =>
          let c := { c with rd := r, rcv := addLast c.rcv b }
          if 1 + m.dataPos < m.dataSize + 2 then some { m.set i c with dataPos := m.dataPos + 1 }
          else (m.set i c).dataDone i e
      else none

/-- One byte for `mux_child_read`, :2241-2709. -/
def Mux.rxByte (m : Mux) (b : UInt8) (e : Env) : Option Mux :=
  if m.state = .inClose ∨ m.state = .closed then some { m with wrEn := false }
  else if m.inHdr then m.rxHdr b e
  else if m.dataPos = 0 then some { m with dataSize := b.toNat * 256, dataPos := 1 }
  else if m.dataPos = 1 then m.rxLen b e
  else m.rxBody b e

/-! ## Opening, closing and the rest of the user's calls -/

/-- `muxc_reinit`, :1671-1692. -/
def Chan.reinit (c : Chan) : Chan :=
  { c with state := .closed, sendClose := false, closeSent := false, readEnabled := false
           rd := { c.rd with pos := 0, len := 0 }, recvUnacked := 0
           wr := { c.wr with pos := 0, len := 0 }, sentUnacked := 0, curLen := 0
           wrReady := false, closeCalled := false }

/-- `muxc_open` for the first channel with the child already open (`do_child` false), :1700-1738. -/
def Mux.openFirst (m : Mux) (i : Nat) : Option Mux :=
  match m.chans[i]? with
  | none => none
  | some c =>
    let c := c.reinit
    let m := { m with sending := none, inHdr := true, hdrPos := 0, hdrSize := 0, xmit := [0x11, 0, 1, 0], xmitPos := 0
                      nrNotClosed := 1, state := .uninit, wrEn := true }
    if m.isClient then
      some { m.set i { c with sendNew := true, state := .inOpen, inOpenChan := true } with
             openchans := if c.inOpenChan then m.openchans else m.openchans ++ [i], opencount := 1 }
    else some (m.set i { c with state := .inOpen })

/-- `muxc_open` for a further channel, :1739-1766. -/
def Mux.openChan (m : Mux) (i : Nat) : Option Mux :=
  match m.chans[i]? with
  | none => none
  | some c =>
    if c.state ≠ .closed then some m
    else
      let c := { c.reinit with sendNew := true, state := .inOpen }
      let m := { m with opencount := m.opencount + 1, nrNotClosed := m.nrNotClosed + 1 }
      if m.opencount = 1 ∧ m.state = .opened then (m.set i c).addWr i
      else some { m.set i { c with inOpenChan := true } with openchans := m.openchans ++ [i] }

/-- `muxc_open`, :1694-1773. -/
def Mux.open (m : Mux) (i : Nat) : Option Mux :=
  if m.state = .closed then m.openFirst i else m.openChan i

/-- `muxc_alloc_channel` and `muxc_alloc_channel_data`, :1469-1506 and :1594-1629: a new channel with the number `id`, that
is not opened yet.  A service string that is too long is refused, :1484-1487 (the difference there is unsigned; the write
buffer is taken to have at least ten bytes). -/
def Mux.alloc (m : Mux) (id : Nat) (service : List UInt8) : Mux :=
  if service.length > m.maxWrite - 10 then m
  else { m with chans := m.chans ++ [{ m.newChan id with service := service }] }

/-- `muxc_close`, :1261-1312. -/
def Mux.close (m : Mux) (i : Nat) : Option Mux :=
  match m.chans[i]? with
  | none => none
  | some c =>
    if c.closeCalled then some m
    else
      match c.state with
      | .inOpen => some (m.set i { c with closeCalled := true, state := .inOpenClose })
      | .inRemClose => some (m.set i { c with closeCalled := true, state := .inCloseFinal })
      | .opened => (m.set i { c with closeCalled := true, state := .inClose, sendClose := true }).addWr i
      | _ => some (m.set i { c with closeCalled := true })

/-- `muxc_set_read_callback_enable`, :1218-1228. -/
def Mux.readEnable (m : Mux) (i : Nat) (en : Bool) : Option Mux :=
  match m.chans[i]? with
  | none => none
  | some c => some (m.set i { c with readEnabled := en })

/-- `chan_deferred_op`, :1058-1081, with the state changes of `mux_channel_finish_close`, :795-864. -/
def Mux.deferred (m : Mux) (i : Nat) (ans : List Ans) : Option Mux :=
  match m.checkRead i ans with
  | none => none
  | some m =>
    match m.chans[i]? with
    | none => none
    | some c =>
      if c.wrReady = false ∧ c.state = .inCloseFinal then
        if m.nrNotClosed = 0 then none
        else
          let m := { m.set i { c with state := .closed } with nrNotClosed := m.nrNotClosed - 1 }
          some (if m.nrNotClosed = 0 then { m with state := .inClose } else m)
      else some m

/-- Everything that can happen to a mux. -/
inductive Op
  | alloc (id : Nat) (service : List UInt8)
  | opn (i : Nat)
  | write (i : Nat) (sg : List (List UInt8)) (eom oob : Bool)
  | close (i : Nat)
  | readEnable (i : Nat) (en : Bool)
  | oob (i : Nat) (en : Bool)
  | deferred (i : Nat) (ans : List Ans)
  | writeReady (ans : List (Option Nat))
  | recv (b : UInt8) (e : Env)
deriving Repr

/-- `GENSIO_CONTROL_ENABLE_OOB` of `muxc_control`, :1815-1820. -/
def Mux.setOob (m : Mux) (i : Nat) (en : Bool) : Option Mux :=
  match m.chans[i]? with
  | none => none
  | some c => some (m.set i { c with doOob := en })

def Mux.step (m : Mux) : Op → Option Mux
  | .alloc id service => some (m.alloc id service)
  | .opn i => m.open i
  | .write i sg eom oob =>
    match m.write i sg eom oob with
    | none => none
    | some (m, _) => some m
  | .close i => m.close i
  | .readEnable i en => m.readEnable i en
  | .oob i en => m.setOob i en
  | .deferred i ans => m.deferred i ans
  | .writeReady ans => m.writeReady ans
  | .recv b e => m.rxByte b e

def Mux.run (m : Mux) : List Op → Option Mux
  | [] => some m
  | op :: ops =>
    match m.step op with
    | none => none
    | some m => m.run ops

/-- A mux as `gensio_mux` leaves it: the header buffer has twelve bytes. -/
def Mux.start (isClient : Bool) (maxRead maxWrite : Nat) : Mux :=
  { isClient := isClient, maxRead := maxRead, maxWrite := maxWrite, hdr := List.replicate 12 0 }

end Gensio.Mux
