import Verif.Model.Ax25
import Verif.Model.Ax25Addr
import Verif.Model.Crc

/-!
# AX.25 frames as bytes, `lib/gensio_ax25.c`

What `ax25_child_write_ready` gives to the lower layer for a frame, and what `ax25_child_read` makes of bytes from it.  The
lookup of the channel is represented by its result: whether there is one for the addresses, and if so whether it is extended.
-/
namespace Gensio.Ax25

open Gensio.Ax25Addr Gensio.Crc

/-- The supervisory values of `enum x25_cmds`, :148-:151. -/
def supCode : Sup → Nat
  | .rr => 0x01
  | .rnr => 0x05
  | .rej => 0x09
  | .srej => 0x0d

/-- The unnumbered values of `enum x25_cmds`, :136-:144. -/
def unnCode : Unn → Nat
  | .sabme => 0x6f
  | .sabm => 0x2f
  | .disc => 0x43
  | .dm => 0x0f
  | .ua => 0x63
  | .frmr => 0x87
  | .xid => 0xaf
  | .test => 0xe3

/-- `X25_UI`, :142. -/
def uiCode : UInt8 := 0x03

/-- A bit as a number. -/
def bit (b : Bool) : Nat := if b then 1 else 0

/-- The control field and what follows it, :4063-:4102 and :4162-:4181; storing into the `unsigned char crv[]` takes the low 8 bits. -/
def control (ext : Bool) : Frame → List UInt8
  | .info nr ns p _ body =>
    if ext then UInt8.ofNat (ns <<< 1) :: UInt8.ofNat (nr <<< 1 ||| bit p) :: body
    else UInt8.ofNat (nr <<< 5 ||| bit p <<< 4 ||| ns <<< 1) :: body
  | .sup k nr pf _ =>
    if ext then [UInt8.ofNat (supCode k), UInt8.ofNat (nr <<< 1 ||| bit pf)]
    else [UInt8.ofNat (nr <<< 5 ||| bit pf <<< 4 ||| supCode k)]
  | .unn k pf _ body => UInt8.ofNat (bit pf <<< 4 ||| unnCode k) :: body

/-- The command bit of a frame. -/
def Frame.isCmd : Frame → Bool
  | .info _ _ _ c _ => c
  | .sup _ _ _ c => c
  | .unn _ _ c _ => c

/-- The command and response bits set in the encoded address, :4050-:4057 and :4150-:4151. -/
def setCr (w : List UInt8) (isCmd : Bool) : List UInt8 :=
  if isCmd then (w.set 6 (w.getD 6 0 ||| 0x80)).set 13 (w.getD 13 0 &&& 0x7f)
  else (w.set 6 (w.getD 6 0 &&& 0x7f)).set 13 (w.getD 13 0 ||| 0x80)

/-- `crc16_sg`, :3991-:4002. -/
def crcBytes (p : List UInt8) : List UInt8 :=
  let crc := ccitt 0xffff p ^^^ 0xffff
  [(crc &&& 0xff).toUInt8, ((crc >>> 8) &&& 0xff).toUInt8]

/-- The bytes of a frame, :4046-:4118 and :4149-:4198. -/
def txBytes (w : List UInt8) (crc ext : Bool) (f : Frame) : List UInt8 :=
  let p := setCr w f.isCmd ++ control ext f
  if crc then p ++ crcBytes p else p

/-- The supervisory frames of the `switch` of `ax25_child_read`, :3957-:3971. -/
def supOf (b : UInt8) : Option Sup :=
  if b = 0x01 then some .rr else if b = 0x05 then some .rnr else if b = 0x09 then some .rej else if b = 0x0d then some .srej else none

/-- The unnumbered frames of the `switch` of `ax25_child_read`, :3917-:3950. -/
def unnOf (b : UInt8) : Option Unn :=
  if b = 0x6f then some .sabme else if b = 0x2f then some .sabm else if b = 0x43 then some .disc else if b = 0x0f then some .dm
  else if b = 0x63 then some .ua else if b = 0x87 then some .frmr else if b = 0xaf then some .xid else if b = 0xe3 then some .test else none

/-- What becomes of a packet: nothing; a UI frame, only reported; an I or S frame for which there is no channel; one with no known
command; or a frame given to its handler. -/
inductive Got
  | drop
  | ui
  | noChan
  | unknown
  | frame (f : Frame)
deriving Repr, DecidableEq

/-- `ax25_chan_handle_report`, :2560-:2646: the PID (`none` is a byte after the end of the packet), the bytes that are behind the
pointer and in the packet, and the count given to the read callback of a channel that reports UI frames. -/
structure Report where
  pid : Option UInt8
  data : List UInt8
  count : Nat
deriving Repr, DecidableEq

/-- :2570-:2572: `len` is an `unsigned int`. -/
def report (body : List UInt8) : Report := ⟨body.head?, body.tail, (body.length + 4294967295) % 4294967296⟩

/-- The control field, :3828-:3911, and the `switch`, :3917-:3974.  `ext` is the mode of the channel, if there is one. -/
def readCtl (ext : Option Bool) (isCmd : Bool) : List UInt8 → Got
  | [] => .drop
  | b :: bs =>
    if b &&& 3 = 3 then
      let pf := decide ((b >>> 4) &&& 1 = 1)
      let cmd := b &&& 0xef
      if cmd = uiCode then .ui
      else match unnOf cmd with
        | some k => .frame (.unn k pf isCmd bs)
        | none => .unknown
    else match ext with
    | none => .noChan
    | some true =>
      match bs with
      | [] => .drop
      | b1 :: bs =>
        let nr := ((b1 >>> 1) &&& 0x7f).toNat
        let pf := decide (b1 &&& 1 = 1)
        if b &&& 1 = 0 then .frame (.info nr ((b >>> 1) &&& 0x7f).toNat pf isCmd bs)
        else match supOf b with
          | some k => .frame (.sup k nr pf isCmd)
          | none => .unknown
    | some false =>
      let nr := ((b >>> 5) &&& 7).toNat
      let pf := decide ((b >>> 4) &&& 1 = 1)
      if b &&& 1 = 0 then .frame (.info nr ((b >>> 1) &&& 7).toNat pf isCmd bs)
      else match supOf (b &&& 0xf) with
        | some k => .frame (.sup k nr pf isCmd)
        | none => .unknown

/-- What is reported for a packet after its addresses, :3830-:3841. -/
def readReport : List UInt8 → Option Report
  | [] => none
  | b :: bs => if b &&& 3 = 3 then some (report bs) else some (report (b :: bs))

/-- The check of the CRC, :3787-:3803; `none` is a packet that is dropped, else what is before the CRC. -/
def checkCrc (crc : Bool) (buf : List UInt8) : Option (List UInt8) :=
  if crc then
    if buf.length < 2 then none
    else
      let p := buf.take (buf.length - 2)
      let msgcrc : UInt16 := ((buf.getD (buf.length - 1) 0).toUInt16 <<< 8) ||| (buf.getD (buf.length - 2) 0).toUInt16
      if msgcrc = ccitt 0xffff p ^^^ 0xffff then some p else none
  else some buf

/-- `ax25_child_read`, :3763-:3974: the addresses, what is reported, and the frame.  `chan` is the lookup of the channel.  The result
`none` is memory read outside of the packet. -/
def rxBytes (crc : Bool) (port : Nat) (chan : Addr → Option Bool) (buf : List UInt8) : Option (Option (Addr × Report × Got)) :=
  match checkCrc crc buf with
  | none => some none
  | some buf =>
    if buf.length < 14 then some none
    else match decodeAddr buf 0 buf.length port with
    | none => none
    | some none => some none
    | some (some (a, pos)) =>
      if a.extra.any (fun e => !e.ch) then some none
      else
        let bs := buf.drop pos
        match readReport bs with
        | none => some none
        | some r => some (some (a, r, readCtl (chan a) a.dest.ch bs))

end Gensio.Ax25
