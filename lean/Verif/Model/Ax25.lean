/-!
# The AX.25 data link, `lib/gensio_ax25.c`

One `struct ax25_chan` between being connected (or connecting) and being closed: what the user writes and reads, every frame
that can arrive for the channel, what the channel sends, its timeouts, and its close.

Simplifications:
* A `uint8_t` is a `Nat` below 256; `u8` stands where the C code stores into one.
* Times are left out: a timeout is an event that can happen at any moment, so `t1`, `t2`, `t3`, `t1v` and `srt` are not here.
* The lock of the channel makes each event one step.  The read callback runs without the lock: `inRead` says which packet it was
  called with and, when it was called from the handling of an I frame, what is left to do of that handling.
* The circular `cmdrsp` queue of 8 entries is a list of at most 8; of UI and raw frames only the copy of
  the data of a write is here (`sendRaw`).
* A read buffer is the list of the bytes not yet taken by the user (`d->data + d->pos`, `d->len` of them).
* The open and close callbacks, reference counts and the lists of the base are left out, but for the membership of the channel in
  `base->chans` (`inChans`); `ax25_chan_report_close` is an event of its own (`fin`) because it waits for the callbacks.
* The error callback of a read (`:1633`-`:1641`) is one step.
* The lower layer is represented by the result of `gensio_ll_write`.
* The result `none` is undefined behaviour: a failed assertion, or memory accessed outside of an array or a buffer.
-/

namespace Gensio.Ax25

/-- Storing into a `uint8_t`. -/
def u8 (n : Nat) : Nat := n % 256

/-- `sub_seq`, :1402-:1408. -/
def subSeq (val1 val2 window : Nat) : Nat :=
  if val2 > val1 then u8 (u8 (val1 + window) + 256 - val2) else u8 (val1 - val2)

/-- `add_seq`, :1413-:1421. -/
def addSeq (val amt window : Nat) : Nat :=
  let rv := u8 (amt + val)
  if rv ≥ window then u8 (rv - window) else rv

/-- `seq_in_range`, :1427-:1435. -/
def seqInRange (start fin val : Nat) : Bool :=
  if start = fin then start == val
  else if fin > start then decide (val ≥ start ∧ val ≤ fin)
  else decide (val ≥ start ∨ val ≤ fin)

/-- `GE_NOTREADY`, `include/gensio/gensio_err.h:30`. -/
def geNotready : Nat := 12
/-- `GE_TIMEDOUT`, `include/gensio/gensio_err.h:32`. -/
def geTimedout : Nat := 14
/-- `GE_PROTOERR`, `include/gensio/gensio_err.h:41`. -/
def geProtoerr : Nat := 23
/-- `GE_IOERR`, `include/gensio/gensio_err.h:43`. -/
def geIoerr : Nat := 25
/-- `GE_REMCLOSE`, `include/gensio/gensio_err.h:44`. -/
def geRemclose : Nat := 26
/-- `GE_LOCALCLOSED`, `include/gensio/gensio_err.h:53`. -/
def geLocalclosed : Nat := 35

/-- The supervisory frames of `enum x25_cmds`, :135-:153. -/
inductive Sup | rr | rnr | rej | srej
deriving Repr, DecidableEq

/-- The unnumbered frames of `enum x25_cmds`, :135-:153, but UI. -/
inductive Unn | sabme | sabm | disc | dm | ua | frmr | xid | test
deriving Repr, DecidableEq

/-- What `struct ax25_chan_cmdrsp.cr` can be. -/
inductive Cmd | sup (k : Sup) | unn (k : Unn)
deriving Repr, DecidableEq

/-- A frame without its addresses.  `body` is what follows the control field. -/
inductive Frame
  | info (nr ns : Nat) (p isCmd : Bool) (body : List UInt8)
  | sup (k : Sup) (nr : Nat) (pf isCmd : Bool)
  | unn (k : Unn) (pf isCmd : Bool) (body : List UInt8)
deriving Repr, DecidableEq

/-- `struct ax25_chan_cmdrsp`, :617-:625. -/
structure CmdRsp where
  cmd : Cmd
  pf : Bool
  isCmd : Bool
  extra : List UInt8
deriving Repr, DecidableEq

/-- The states of `enum ax25_chan_state` a channel with an address goes through, :212-:330. -/
inductive St | closed | inOpen | opn | drain | inClose | remDisc | remClose | reportClose | ioErr
deriving Repr, DecidableEq

/-- The parts of `struct ax25_conf_data`, :424-:463, used here. -/
structure Conf where
  maxRead : Nat
  maxWrite : Nat
  readwindow : Nat
  writewindow : Nat
  wwSet : Bool
  srtv : Nat
  maxRetries : Nat
  extended : Nat
  ignoreUa : Bool
deriving Repr, DecidableEq

/-- An element of `write_data`, `struct ax25_data`, :603-:610. -/
structure WSlot where
  data : List UInt8
  len : Nat
  seq : Nat
  pid : UInt8
  present : Bool
deriving Repr, DecidableEq

/-- An element of `read_data`, `struct ax25_data`, :603-:610. -/
structure RSlot where
  rest : List UInt8
  pid : UInt8
deriving Repr, DecidableEq

/-- A read callback in progress: the index of its packet, and the P bit of the I frame whose handling called it, if one did. -/
structure InRead where
  idx : Nat
  rx : Option Bool
deriving Repr, DecidableEq

/-- `struct ax25_chan`, :645-:812. -/
structure Chan where
  conf : Conf
  readwindow : Nat
  writewindow : Nat
  maxWrite : Nat
  maxRetries : Nat
  extended : Nat
  modulo : Nat
  rd : List RSlot
  readPos : Nat
  readLen : Nat
  inRead : Option InRead
  readEnabled : Bool
  wr : List WSlot
  writePos : Nat
  writeLen : Nat
  sendLen : Nat
  vs : Nat
  vr : Nat
  va : Nat
  cmdrsp : List CmdRsp
  state : St
  inChans : Bool
  err : Nat
  gotFirst : Bool
  peerBsy : Bool
  ownBsy : Bool
  inRej : Bool
  ackPending : Nat
  pollPending : Bool
  dataPSent : Bool
  retryCount : Nat
deriving Repr, DecidableEq

/-- `ax25_chan_reset_data`, :1966-:2001. -/
def resetData (c : Chan) : Chan :=
  { c with vs := 0, va := 0, vr := 0, peerBsy := false, ownBsy := false, readPos := 0, readLen := 0, writePos := 0, writeLen := 0,
           sendLen := 0, cmdrsp := [], inRej := false, ackPending := 0, pollPending := false, dataPSent := false, retryCount := 0,
           err := 0, gotFirst := false }

/-- `ax25_chan_send_cr`, :2054-:2076; `AX25_CHAN_MAX_CMDRSP` is 8. -/
def sendCr (c : Chan) (cmd : Cmd) (pf isCmd : Bool) (extra : List UInt8) : Chan :=
  if c.cmdrsp.length < 8 then { c with cmdrsp := c.cmdrsp ++ [⟨cmd, pf, isCmd, extra⟩] } else c

/-- `ax25_chan_send_cmd`, :2078-:2082. -/
def sendCmd (c : Chan) (cmd : Cmd) (pf : Bool) : Chan := sendCr c cmd pf true []

/-- `ax25_chan_send_rsp`, :2084-:2088. -/
def sendRsp (c : Chan) (cmd : Cmd) (pf : Bool) : Chan := sendCr c cmd pf false []

/-- `ax25_chan_send_sabm`, :2090-:2105. -/
def sendSabm (c : Chan) : Chan :=
  if c.extended > 1 then
    sendCr c (.unn .sabme) true true
      [UInt8.ofNat c.conf.readwindow, UInt8.ofNat (c.conf.maxRead % 256), UInt8.ofNat (c.conf.maxRead / 256), 0]
  else if c.extended ≠ 0 then sendCmd c (.unn .sabme) true
  else sendCmd c (.unn .sabm) true

/-- The search for a queued RR, :1593-:1605: with its P/F bit set if needed, or `none` if there is none. -/
def setRR (pf isCmd : Bool) : List CmdRsp → Option (List CmdRsp)
  | [] => none
  | e :: q =>
    if e.cmd = .sup .rr ∧ e.isCmd = isCmd then some ((if pf then { e with pf := true } else e) :: q)
    else (setRR pf isCmd q).map (e :: ·)

/-- `ax25_chan_send_ack`, :1581-:1613. -/
def sendAck (c : Chan) (pf isCmd : Bool) : Chan :=
  let c := { c with ackPending := 0 }
  if pf = false ∧ isCmd = false ∧ c.sendLen > 0 then c
  else match setRR pf isCmd c.cmdrsp with
  | some q => { c with cmdrsp := q }
  | none => sendCr c (.sup .rr) pf isCmd []

/-- `ax25_chan_move_to_closed`, :1528-:1546, from `base->chans`; `gensio_list_rm` asserts that the channel is in the list. -/
def moveToClosed (c : Chan) : Option Chan :=
  if c.inChans then some { c with inChans := false } else none

/-- `ax25_chan_do_close`, :1548-:1556. -/
def doClose (c : Chan) : Option Chan := moveToClosed { c with state := .reportClose }

/-- `ax25_chan_do_err_close`, :1558-:1579. -/
def doErrClose (c : Chan) : Option Chan :=
  moveToClosed <| match c.state with
  | .inOpen => { c with state := .closed }
  | .inClose | .drain | .reportClose => { c with state := .reportClose }
  | _ => { c with state := .ioErr }

/-- `check_for_busy` in `ax25_chan_deliver_read`, :1664-:1676. -/
def checkBusy (c : Chan) : Chan :=
  if c.ownBsy = false ∧ c.readLen > c.conf.readwindow / 2 then sendAck { c with ownBsy := true } false false
  else if c.ownBsy = true ∧ c.readLen = 0 then { sendAck { c with ownBsy := false } true true with pollPending := true }
  else c

/-- The end of the handling of an I frame that was stored, :3311-:3325. -/
def rxFinish (c : Chan) (pf : Bool) : Chan :=
  let c := { c with vr := addSeq c.vr 1 c.modulo }
  if pf then sendAck c true false
  else if c.ackPending > c.readwindow / 2 then sendAck c false false
  else { c with ackPending := u8 (c.ackPending + 1) }

/-- The end of `ax25_chan_deliver_read` after its loop, :1661-:1676, and what its caller does after it. -/
def readExit (c : Chan) : Chan :=
  match c.inRead with
  | none => c
  | some r =>
    let c := checkBusy { c with inRead := none }
    match r.rx with
    | some pf => rxFinish c pf
    | none => c

/-- The head of the loop of `ax25_chan_deliver_read`, :1632-:1643: calls the callback, or leaves the loop. -/
def readLoop (c : Chan) : Chan :=
  if c.readEnabled then
    if c.err ≠ 0 then readExit { c with readEnabled := false }
    else if c.readLen > 0 then { c with inRead := c.inRead.map ({ · with idx := c.readPos }) }
    else readExit c
  else readExit c

/-- `ax25_chan_deliver_read`, :1615-:1677, called with nothing else to do after it by `ax25_chan_deferred_op`, :1705-:1730, or by
the handling of an I frame with P bit `pf`, :3311. -/
def deliverRead (c : Chan) (rx : Option Bool) : Chan :=
  match c.inRead with
  | some _ =>
    let c := checkBusy c
    match rx with
    | some pf => rxFinish c pf
    | none => c
  | none => readLoop { c with inRead := some ⟨c.readPos, rx⟩ }

/-- The return of the read callback, :1647-:1659, with the number of bytes taken or an error.  The bytes taken are
given with the PID reported with them. -/
def readRet (c : Chan) (r : Except Nat Nat) : Option (Chan × List (UInt8 × UInt8)) :=
  match c.inRead with
  | none => none
  | some ir =>
    match r with
    | .error e =>
      if c.err = 0 then (doErrClose { c with err := e }).map fun c => (readExit c, []) else some (readExit c, [])
    | .ok n =>
      match c.rd[ir.idx]? with
      | none => none
      | some d =>
        if n < d.rest.length then
          some (readLoop { c with rd := c.rd.set ir.idx { d with rest := d.rest.drop n } }, (d.rest.take n).map (d.pid, ·))
        else
          some (readLoop { c with readPos := addSeq c.readPos 1 c.conf.readwindow, readLen := u8 (c.readLen + 255) }, d.rest.map (d.pid, ·))

/-- `ax25_chan_set_extended`, :2420-:2475. -/
def setExtended (c : Chan) (extended : Bool) (data : List UInt8) : Chan :=
  let c := { c with maxRetries := c.conf.maxRetries }
  match data with
  | d0 :: d1 :: d2 :: _ :: _ =>
    if c.extended ≥ 2 ∧ extended then
      let maxPkt := d2.toNat * 256 + d1.toNat
      { c with
        extended := 2, modulo := 128,
        writewindow := if d0 ≠ 0 then d0.toNat else if c.conf.writewindow > 7 then 7 else u8 c.conf.writewindow,
        maxWrite := if maxPkt < 256 then 256 else if maxPkt > c.conf.maxWrite then c.conf.maxWrite % 65536 else maxPkt,
        readwindow := u8 c.conf.readwindow }
    else plain c
  | _ => plain c
where
  /-- :2447-:2475. -/
  plain (c : Chan) : Chan :=
    let c := { c with maxWrite := if c.conf.maxWrite > 256 then 256 else c.conf.maxWrite }
    if extended then
      { c with extended := 1, modulo := 128,
               writewindow := if c.conf.writewindow > 7 then 7 else c.conf.writewindow,
               readwindow := if c.conf.readwindow > 7 then 7 else c.conf.readwindow }
    else
      { c with extended := 0, modulo := 8,
               writewindow := if c.conf.wwSet then (if c.conf.writewindow > 4 then 4 else c.conf.writewindow) else 2,
               readwindow := if c.conf.readwindow > 4 then 4 else c.conf.readwindow }

/-- `ax25_chan_handle_fallback_response`, :2920-:2936. -/
def fallback (c : Chan) : Chan :=
  if c.extended = 2 then sendSabm { c with extended := 1 }
  else if c.extended = 1 then sendSabm { c with extended := 0, modulo := 8, writewindow := 2, readwindow := 4 }
  else c

/-- `ax25_chan_handle_sabm`, :2747-:2879, for an existing channel. -/
def handleSabm (c : Chan) (pf isCmd extended : Bool) (data : List UInt8) : Option Chan :=
  match c.state with
  | .inOpen =>
    if c.extended = 0 ∧ extended then
      some (sendCr c (.unn .frmr) pf isCmd [1, if isCmd then 16 else 0, 0x6f])
    else some (sendRsp (setExtended c extended data) (.unn .ua) pf)
  | .opn =>
    if c.gotFirst then doErrClose { sendRsp c (.unn .dm) pf with err := geProtoerr }
    else some (sendRsp (setExtended c extended data) (.unn .ua) pf)
  | .drain | .inClose | .remDisc | .remClose => doClose (sendRsp c (.unn .dm) pf)
  | _ => none

/-- `ax25_chan_handle_disc`, :2881-:2918, for an existing channel.  The UA to a closing channel goes to the queue of the base. -/
def handleDisc (c : Chan) (pf : Bool) : Option Chan :=
  match c.state with
  | .inOpen => some (sendRsp c (.unn .dm) pf)
  | .drain | .inClose => doClose c
  | .opn => some (sendRsp { c with err := geRemclose, state := .remDisc } (.unn .ua) pf)
  | .remDisc | .remClose => some (sendRsp c (.unn .ua) pf)
  | _ => none

/-- `ax25_chan_handle_dm`, :2938-:2988, for an existing channel. -/
def handleDm (c : Chan) (pf : Bool) : Option Chan :=
  match c.state with
  | .inOpen =>
    if c.extended > 0 then some (fallback c)
    else if pf then doErrClose { c with err := geRemclose }
    else some c
  | .opn => doErrClose { c with err := geRemclose }
  | .drain => doClose { c with err := geRemclose }
  | .inClose | .remDisc | .remClose => if pf then doClose { c with err := geRemclose } else some c
  | _ => none

/-- `ax25_chan_handle_ua`, :2990-:3051, for an existing channel. -/
def handleUa (c : Chan) (pf : Bool) (data : List UInt8) : Option Chan :=
  match c.state with
  | .inOpen =>
    if pf then some { (if data.length ≥ 4 then setExtended c true data else c) with state := .opn }
    else some c
  | .opn => if c.conf.ignoreUa then some c else some (resetData c)
  | .drain => some { sendCmd c (.unn .disc) true with state := .inClose }
  | .inClose => if pf then doClose c else some c
  | .remDisc | .remClose => some c
  | _ => none

/-- Bytes of a 16-bit value, most significant first. -/
def be16 (v : Nat) : List UInt8 := [UInt8.ofNat (v / 256), UInt8.ofNat v]

/-- Bytes of a 32-bit value, most significant first. -/
def be32 (v : Nat) : List UInt8 :=
  [UInt8.ofNat (v / 16777216), UInt8.ofNat (v / 65536), UInt8.ofNat (v / 256), UInt8.ofNat v]

/-- `ax25_chan_format_xid`, :3054-:3110.  `UInt8.ofNat` takes the low 8 bits. -/
def formatXid (f : Conf) : List UInt8 :=
  [0x82, 0x80] ++ be16 25 ++ [2, 2, 0x21, 0] ++ [3, 3, 0x86, 0xa8, 0x02] ++ [6, 2] ++ be16 (f.maxRead * 8)
    ++ [8, 1, UInt8.ofNat f.readwindow] ++ [9, 4] ++ be32 (f.srtv * 2) ++ [10, 1, UInt8.ofNat f.maxRetries]

/-- The value of a parameter, :3146-:3147. -/
def xidVal (bs : List UInt8) : Nat := bs.foldl (fun v b => v * 256 + b.toNat) 0

/-- One parameter of an XID, :3149-:3192. -/
def xidParm (c : Chan) (ind val : Nat) : Chan :=
  if ind = 6 then
    if val % 8 ≠ 0 then c
    else
      let val := val / 8
      if val = 0 then c
      else { c with writewindow := u8 (if val > c.conf.maxWrite then c.conf.maxWrite else val) }
  else if ind = 8 then
    if val = 0 then c
    else { c with writewindow := u8 (if val > c.conf.writewindow then c.conf.writewindow else val) }
  else if ind = 10 then
    if val = 0 then c
    else if val > c.conf.maxRetries then { c with maxRetries := val } else c
  else c

/-- The parameters of an XID, :3133-:3194.  `false` is a return before the end.  The list is the rest of the packet, of which
`glen` bytes are in the group. -/
def xidLoop (c : Chan) (bs : List UInt8) (glen : Nat) : Option (Chan × Bool) :=
  if glen = 0 then some (c, true)
  else if glen < 2 then some (c, false)
  else match bs with
  | ind :: len :: bs' =>
    if len.toNat < 1 ∨ len.toNat > 4 then some (c, false)
    else if glen < len.toNat + 2 then some (c, false)
    else if bs'.length < len.toNat then none
    else xidLoop (xidParm c ind.toNat (xidVal (bs'.take len.toNat))) (bs'.drop len.toNat) (glen - (len.toNat + 2))
  | _ => none
termination_by glen

/-- `ax25_chan_handle_xid`, :3112-:3197, for an existing channel. -/
def handleXid (c : Chan) (pf isCmd : Bool) (buf : List UInt8) : Option Chan :=
  if c.state ≠ .opn then some c
  else match buf with
  | b0 :: b1 :: b2 :: b3 :: bs =>
    if b0 ≠ 0x82 then some c
    else if b1 ≠ 0x80 then some c
    else
      let glen := b2.toNat * 256 + b3.toNat
      if bs.length < glen then some c
      else match xidLoop c bs glen with
      | none => none
      | some (c, true) => if isCmd then some (sendRsp c (.unn .xid) pf) else some c
      | some (c, false) => some c
  | _ => some c

/-- `ax25_chan_handle_test`, :3199-:3212, for an existing channel; `AX25_CHAN_MAX_CMDRSP_EXTRA` is 32. -/
def handleTest (c : Chan) (pf : Bool) (buf : List UInt8) : Chan :=
  if c.state ≠ .opn then c else sendCr c (.unn .test) pf false (buf.take 32)

/-- `ax25_chan_handle_frmr`, :3214-:3239, for an existing channel. -/
def handleFrmr (c : Chan) : Option Chan :=
  match c.state with
  | .inOpen => some (fallback c)
  | .opn | .drain | .inClose | .remDisc | .remClose => some c
  | _ => none

/-- `ax25_chan_update_va`, :3241-:3259, without the scheduling of a write callback. -/
def updateVa (c : Chan) (nr : Nat) : Chan :=
  let first := subSeq c.vs c.writeLen c.modulo
  let diff := subSeq nr first c.modulo
  let wl := u8 (c.writeLen + 256 - diff)
  { c with va := nr, writeLen := wl, sendLen := if c.sendLen > wl then wl else c.sendLen }

/-- `ax25_chan_seq_in_range`, :3261-:3271. -/
def nrInRange (c : Chan) (nr : Nat) : Bool := seqInRange (subSeq c.vs c.writeLen c.modulo) c.vs nr

/-- `ax25_chan_handle_data`, :3273-:3346. -/
def handleData (c : Chan) (ns : Nat) (pf : Bool) (body : List UInt8) : Option (Chan × Nat) :=
  let pos := addSeq c.readPos c.readLen c.conf.readwindow
  if c.ownBsy then some (if pf then sendAck c pf true else c, 0)
  else match body with
  | [] => some (c, geProtoerr)
  | pid :: data =>
    if ns = c.vr then
      if c.readLen ≥ c.conf.readwindow then some (c, geProtoerr)
      else if pos ≥ c.rd.length ∨ data.length > c.conf.maxRead then none
      else
        some (deliverRead { c with inRej := false, rd := c.rd.set pos ⟨data, pid⟩, readLen := u8 (c.readLen + 1) } (some pf), 0)
    else if seqInRange c.vr (addSeq c.vr (c.readwindow - 1) c.modulo) ns then
      if c.inRej then some (if pf then sendAck c pf false else c, 0)
      else some ({ sendRsp { c with inRej := true } (.sup .rej) pf with ackPending := 0 }, 0)
    else some (c, 0)

/-- `ax25_chan_check_drain_done`, :3348-:3358. -/
def checkDrainDone (c : Chan) : Chan :=
  if c.vs = c.va then { sendCmd c (.unn .disc) true with state := .inClose } else c

/-- `ax25_chan_check_i_frame_acked`, :3360-:3381. -/
def checkIAcked (c : Chan) (nr : Nat) : Chan :=
  if c.peerBsy then updateVa c nr
  else if c.vs = nr then updateVa c nr
  else if c.va ≠ nr then updateVa c nr
  else c

/-- `ax25_chan_handle_i`, :3383-:3429. -/
def handleI (c : Chan) (nr ns : Nat) (pf isCmd : Bool) (body : List UInt8) : Option (Chan × Nat) :=
  let c := { c with gotFirst := true }
  match c.state with
  | .inOpen | .remDisc | .remClose => some (c, 0)
  | .inClose => some (if pf then sendRsp c (.unn .dm) pf else c, 0)
  | .opn | .drain =>
    if isCmd = false then some (c, 0)
    else if body.length > c.conf.maxRead + 1 then some (c, geProtoerr)
    else if nrInRange c nr = false then some (c, geProtoerr)
    else
      let c := checkIAcked c nr
      if c.state = .opn then handleData c ns pf body else some (checkDrainDone c, 0)
  | _ => none

/-- `ax25_chan_check_response_needed`, :3431-:3447. -/
def checkRspNeeded (c : Chan) (pf isCmd : Bool) : Chan :=
  if isCmd = true ∧ pf = true then sendAck c pf false
  else if isCmd = false ∧ pf = true then
    if c.pollPending then { c with pollPending := false, retryCount := 0 }
    else if c.dataPSent then { c with dataPSent := false }
    else c
  else c

/-- The loop of `ax25_chan_rewind_seq`, :3462-:3468, `n` more turns. -/
def markPresent (ww : Nat) (selective : Bool) : Nat → Nat → List WSlot → Option (List WSlot)
  | 0, _, wr => some wr
  | n + 1, pos, wr =>
    match wr[pos]? with
    | none => none
    | some d =>
      let wr := wr.set pos { d with present := true }
      if selective then some wr else markPresent ww selective n (addSeq pos 1 ww) wr

/-- `ax25_chan_rewind_seq`, :3449-:3471. -/
def rewindSeq (c : Chan) (nr : Nat) (selective : Bool) : Option Chan :=
  let diff := subSeq c.vs nr c.modulo
  if diff > c.sendLen ∧ diff > c.writeLen then none
  else
    let c := { c with sendLen := if diff > c.sendLen then diff else c.sendLen }
    match markPresent c.conf.writewindow selective diff (subSeq c.writePos diff c.conf.writewindow) c.wr with
    | none => none
    | some wr => some { c with wr := wr }

/-- `ax25_chan_handle_recovery_rsp`, :3473-:3508. -/
def recoveryRsp (c : Chan) (nr : Nat) (pf isCmd : Bool) : Option (Chan × Nat) :=
  if (isCmd = false ∧ pf = true) ∨ c.pollPending = true then
    if nrInRange c nr = false then some (c, geProtoerr)
    else
      let c := updateVa c nr
      if c.vs = c.va then some ({ c with pollPending := false, retryCount := 0 }, 0)
      else (rewindSeq c nr false).map (·, 0)
  else
    let c := if isCmd = true ∧ pf = true then sendAck c pf false else c
    if nrInRange c nr = false then some (c, geProtoerr) else some (updateVa c nr, 0)

/-- `ax25_chan_handle_rr_rnr`, :3518-:3537. -/
def handleRrRnr (c : Chan) (nr : Nat) (pf isCmd : Bool) : Option (Chan × Nat) :=
  let r :=
    if c.pollPending then recoveryRsp c nr pf isCmd
    else
      let c := checkRspNeeded c pf isCmd
      if nrInRange c nr = false then some (c, geProtoerr) else some (checkIAcked c nr, 0)
  match r with
  | none => none
  | some (c, e) =>
    if e ≠ 0 then some (c, e)
    else if c.state = .drain then some (checkDrainDone c, 0) else some (c, 0)

/-- `ax25_chan_handle_rr`, :3539-:3568. -/
def handleRr (c : Chan) (nr : Nat) (pf isCmd : Bool) : Option (Chan × Nat) :=
  match c.state with
  | .inOpen | .remDisc | .remClose => some (c, 0)
  | .inClose => some (if pf then sendRsp c (.unn .dm) pf else c, 0)
  | .opn | .drain => handleRrRnr { c with peerBsy := false } nr pf isCmd
  | _ => none

/-- `ax25_chan_handle_rnr`, :3570-:3599. -/
def handleRnr (c : Chan) (nr : Nat) (pf isCmd : Bool) : Option (Chan × Nat) :=
  match c.state with
  | .inOpen | .remDisc | .remClose => some (c, 0)
  | .inClose => some (if pf then sendRsp c (.unn .dm) pf else c, 0)
  | .opn | .drain => handleRrRnr { c with peerBsy := true } nr pf isCmd
  | _ => none

/-- `ax25_chan_handle_rej`, :3601-:3651. -/
def handleRej (c : Chan) (nr : Nat) (pf isCmd : Bool) : Option (Chan × Nat) :=
  match c.state with
  | .inOpen | .remDisc | .remClose => some (c, 0)
  | .inClose => some (if pf then sendRsp c (.unn .dm) pf else c, 0)
  | .opn | .drain =>
    if c.pollPending then
      let c := if isCmd = true ∧ pf = true then sendAck c pf false else c
      if nrInRange c nr = false then some (c, geProtoerr)
      else
        let c := { c with va := nr }
        if c.va = c.vs then some (c, 0) else (rewindSeq c nr false).map (·, 0)
    else
      let c := checkRspNeeded c pf isCmd
      if nrInRange c nr = false then some (c, geProtoerr) else (rewindSeq c nr false).map (·, 0)
  | _ => none

/-- `ax25_chan_handle_srej`, :3653-:3702. -/
def handleSrej (c : Chan) (nr : Nat) (pf isCmd : Bool) : Option (Chan × Nat) :=
  match c.state with
  | .inOpen | .remDisc | .remClose => some (c, 0)
  | .inClose => some (if pf then sendRsp c (.unn .dm) pf else c, 0)
  | .opn | .drain =>
    if c.pollPending then
      if nrInRange c nr = false then some (c, geProtoerr)
      else
        let c := if pf then { c with va := nr } else c
        if c.va = c.vs then some (c, 0) else (rewindSeq c nr true).map (·, 0)
    else
      let c := checkRspNeeded c pf isCmd
      if nrInRange c nr = false then some (c, geProtoerr) else (rewindSeq c nr true).map (·, 0)
  | _ => none

/-- The dispatch of `ax25_child_read`, :3919-:3974, for an existing channel, with the error of the handler. -/
def dispatch (c : Chan) : Frame → Option (Chan × Nat)
  | .info nr ns p isCmd body => handleI c nr ns p isCmd body
  | .sup .rr nr pf isCmd => handleRr c nr pf isCmd
  | .sup .rnr nr pf isCmd => handleRnr c nr pf isCmd
  | .sup .rej nr pf isCmd => handleRej c nr pf isCmd
  | .sup .srej nr pf isCmd => handleSrej c nr pf isCmd
  | .unn .sabme pf isCmd body => (handleSabm c pf isCmd true body).map (·, 0)
  | .unn .sabm pf isCmd body => (handleSabm c pf isCmd false body).map (·, 0)
  | .unn .disc pf _ _ => (handleDisc c pf).map (·, 0)
  | .unn .dm pf _ _ => (handleDm c pf).map (·, 0)
  | .unn .ua pf _ body => (handleUa c pf body).map (·, 0)
  | .unn .frmr _ _ _ => (handleFrmr c).map (·, 0)
  | .unn .xid pf isCmd body => (handleXid c pf isCmd body).map (·, 0)
  | .unn .test pf _ body => some (handleTest c pf body, 0)

/-- A frame for the channel, `ax25_child_read`, :3763-:3989, after its addresses and control field.  A frame for a channel that is
not in `base->chans`, or that the remote end has disconnected, is not given to the channel
(`ax25_chan_check_and_lock`, :1778-:1798). -/
def rx (c : Chan) (f : Frame) : Option Chan :=
  if c.inChans = false ∨ c.state = .remDisc ∨ c.state = .remClose then some c
  else match dispatch c f with
  | none => none
  | some (c, e) => if e ≠ 0 then doErrClose { c with err := e } else some c

/-- `ax25_t1_timeout`, :2266-:2330. -/
def t1 (c : Chan) : Option Chan :=
  match c.state with
  | .inOpen =>
    if c.retryCount ≥ c.maxRetries then moveToClosed { c with err := geTimedout, state := .closed }
    else some (sendSabm { c with retryCount := c.retryCount + 1 })
  | .opn | .drain =>
    if c.pollPending then
      if c.retryCount = c.maxRetries then doErrClose { sendRsp c (.unn .dm) true with err := geTimedout }
      else some (sendAck { c with retryCount := c.retryCount + 1 } true true)
    else some (sendAck { c with retryCount := 1, pollPending := true } true true)
  | .inClose =>
    if c.retryCount ≥ c.maxRetries then doClose { c with err := geTimedout }
    else some (sendCmd { c with retryCount := c.retryCount + 1 } (.unn .disc) true)
  | _ => some c

/-- `ax25_t2_timeout`, :2332-:2347. -/
def t2 (c : Chan) : Chan :=
  match c.state with
  | .drain | .opn => if c.ackPending ≠ 0 then sendAck c false false else c
  | _ => c

/-- `ax25_t3_timeout`, :2349-:2364. -/
def t3 (c : Chan) : Chan :=
  match c.state with
  | .opn => sendAck { c with retryCount := 0 } true true
  | _ => c

/-- What `gensio_ll_write` did: took the whole frame, nothing, a part of it, or failed. -/
inductive LlRes | full | zero | part | fail (e : Nat)
deriving Repr, DecidableEq

/-- An error of the lower layer reported to the channel, `i_ax25_base_handle_child_err`, :3735-:3748. -/
def childErr (c : Chan) (e : Nat) : Option Chan :=
  if c.inChans then doErrClose { c with err := e } else some c

/-- After an entry of the command queue is done with, :4123-:4132. -/
def skipCmdrsp (c : Chan) : Option Chan :=
  let c := { c with cmdrsp := c.cmdrsp.tail }
  match c.state with
  | .remDisc => doErrClose c
  | .remClose => doClose c
  | _ => some c

/-- The frame for an entry of the command queue, :4064-:4107; `none` is a REJ that is not needed any more. -/
def crFrame (c : Chan) (e : CmdRsp) : Option Frame :=
  match e.cmd with
  | .sup k =>
    if k = .rr ∧ c.ownBsy = true then some (.sup .rnr c.vr e.pf e.isCmd)
    else if k = .rej ∧ c.inRej = false then none
    else some (.sup k c.vr e.pf e.isCmd)
  | .unn .xid => some (.unn .xid e.pf e.isCmd (formatXid c.conf))
  | .unn k => some (.unn k e.pf e.isCmd e.extra)

/-- One turn for the channel of the loop of `ax25_child_write_ready`, :4037-:4254, and the errors after it; with the frame given to
the lower layer if it took all of it. -/
def tx (c : Chan) (r : LlRes) : Option (Chan × Option Frame) :=
  if c.inChans = false then some (c, none)
  else match c.cmdrsp with
  | e :: _ =>
    match crFrame c e with
    | none => (skipCmdrsp c).map (·, none)
    | some f =>
      match r with
      | .full => (skipCmdrsp c).map (·, some f)
      | .zero => some (c, none)
      | .part => (childErr c geIoerr).map (·, none)
      | .fail e => (childErr c e).map (·, none)
  | [] =>
    if c.peerBsy = false ∧ c.sendLen > 0 then
      let pos := subSeq c.writePos c.sendLen c.conf.writewindow
      match c.wr[pos]? with
      | none => none
      | some d =>
        if d.present = false then some ({ c with sendLen := c.sendLen - 1 }, none)
        else
          let p := decide (subSeq c.vs c.va c.modulo ≥ c.writewindow)
          let c := { c with dataPSent := c.dataPSent || p, ackPending := 0 }
          match r with
          | .fail e => (childErr c e).map (·, none)
          | .zero => some (c, none)
          | .part => (childErr { c with wr := c.wr.set pos { d with present := false } } geIoerr).map (·, none)
          | .full =>
            let f := Frame.info c.vr d.seq p true (d.pid :: d.data.take d.len)
            let c := { c with wr := c.wr.set pos { d with present := false }, sendLen := c.sendLen - 1 }
            if c.state = .drain ∧ c.sendLen = 0 then
              some (sendAck { c with retryCount := 1, pollPending := true } true true, some f)
            else some (c, some f)
    else some (c, none)

/-- `memcpy` of the list to position `pos` of the buffer; `none` if it does not fit. -/
def copyAt (buf : List UInt8) (pos : Nat) (src : List UInt8) : Option (List UInt8) :=
  if src.length = 0 then some buf
  else if pos + src.length ≤ buf.length then some (buf.take pos ++ src ++ buf.drop (pos + src.length))
  else none

/-- The copy of the user's data, :4543-:4551.  `left` is a 64-bit unsigned number. -/
def copySg (buf : List UInt8) (left pos : Nat) : List (List UInt8) → Option (List UInt8)
  | [] => some buf
  | s :: sg =>
    match copyAt buf pos (if s.length > left then s.take left else s) with
    | none => none
    | some buf =>
      copySg buf ((left + 18446744073709551616 - s.length) % 18446744073709551616) (pos + s.length) sg

/-- `ax25_chan_write`, :4459-:4571, of data that is neither raw nor out of band: the channel, the error and the count. -/
def write (c : Chan) (sg : List (List UInt8)) (pid : UInt8) : Option (Chan × Nat × Nat) :=
  let total := sg.flatten.length
  let len := if total > c.maxWrite then c.maxWrite else total
  if c.state ≠ .opn then some (c, if c.err ≠ 0 then c.err else geNotready, 0)
  else if c.writeLen ≥ c.writewindow then some (c, 0, 0)
  else match c.wr[c.writePos]? with
  | none => none
  | some d =>
    match copySg d.data len 0 sg with
    | none => none
    | some buf =>
      let c' := { c with
        wr := c.wr.set c.writePos ⟨buf, len, c.vs, pid, true⟩
        vs := addSeq c.vs 1 c.modulo
        writePos := addSeq c.writePos 1 c.conf.writewindow
        writeLen := u8 (c.writeLen + 1)
        sendLen := u8 (c.sendLen + 1) }
      if c'.sendLen > c.conf.writewindow then none else some (c', 0, len)

/-- The copies of `ax25_chan_send_raw`, :4397-:4400, and of `ax25_chan_send_ui`, :4438-:4441; with the position after them. -/
def copyAll (buf : List UInt8) (pos : Nat) : List (List UInt8) → Option (List UInt8 × Nat)
  | [] => some (buf, pos)
  | s :: sg => match copyAt buf pos s with | none => none | some buf => copyAll buf (pos + s.length) sg

/-- The frame made by a raw write, :4485-:4491 and `ax25_chan_send_raw`, :4380-:4416 (`hdr` is empty), or by a write of a UI frame,
:4493-:4521 and `ax25_chan_send_ui`, :4418-:4457 (`hdr` is the encoded address, the UI control byte and the PID), with the count
returned.  The two bytes of the CRC are written by `ax25_add_crc`, :4368-:4378; their value and the change of the C/R bits of the
address are left out. -/
def sendRaw (maxWrite : Nat) (crc : Bool) (hdr : List UInt8) (sg : List (List UInt8)) : Option (List UInt8 × Nat) :=
  let total := sg.flatten.length
  let len := if total > maxWrite then maxWrite else total
  let buf := List.replicate (len + hdr.length + (if crc then 2 else 0)) 0
  match copyAt buf 0 hdr with
  | none => none
  | some buf =>
    match copyAll buf hdr.length sg with
    | none => none
    | some (buf, pos) =>
      if crc then (copyAt buf pos [0, 0]).map fun b => (b.take (pos + 2), len) else some (buf.take pos, len)

/-- `i_ax25_chan_close`, :4685-:4767, with its result. -/
def close (c : Chan) : Option (Chan × Nat) :=
  match c.state with
  | .closed | .inClose | .reportClose | .drain | .remClose => some (c, geNotready)
  | .remDisc => some ({ c with state := .remClose }, 0)
  | .ioErr => some ({ c with state := .reportClose }, 0)
  | .inOpen =>
    (moveToClosed { sendCmd { c with retryCount := 0, err := geLocalclosed } (.unn .dm) true with state := .reportClose }).map (·, 0)
  | .opn =>
    if c.writeLen > 0 then
      some ({ sendAck { c with retryCount := 1, pollPending := true } true true with state := .drain }, 0)
    else
      let c := { c with retryCount := 0 }
      let c := if c.ackPending ≠ 0 then sendAck c false false else c
      some ({ sendCmd c (.unn .disc) true with state := .inClose }, 0)

/-- `ax25_chan_report_close`, :1470-:1498, when no callback is in progress. -/
def fin (c : Chan) : Chan :=
  if c.state = .reportClose ∧ c.inRead = none then resetData { c with state := .closed } else c

/-- What can happen to a channel. -/
inductive Ev
  | write (sg : List (List UInt8)) (pid : UInt8)
  | tx (r : LlRes)
  | rx (f : Frame)
  | readEn (b : Bool)
  | deferred
  | readRet (r : Except Nat Nat)
  | t1
  | t2
  | t3
  | close
  | fin
  | childErr (e : Nat)

/-- One event. -/
def step (c : Chan) : Ev → Option Chan
  | .write sg pid => (write c sg pid).map (·.1)
  | .tx r => (tx c r).map (·.1)
  | .rx f => rx c f
  | .readEn b => some { c with readEnabled := b }
  | .deferred => some (deliverRead c none)
  | .readRet r => (readRet c r).map (·.1)
  | .t1 => t1 c
  | .t2 => some (t2 c)
  | .t3 => some (t3 c)
  | .close => (close c).map (·.1)
  | .fin => some (fin c)
  | .childErr e => childErr c e

/-- The sequence numbers of a frame are below the modulus: the decoder of `ax25_child_read`, :3881-:3911, takes 3 or 7 bits. -/
def frameIn (m : Nat) : Frame → Bool
  | .info nr ns _ _ _ => decide (nr < m) && decide (ns < m)
  | .sup _ nr _ _ => decide (nr < m)
  | .unn .. => true

/-- An event can happen: one frame is handled at a time; a callback returns after it was called, and takes no more than it was
given; errors are not 0. -/
def possible (c : Chan) : Ev → Bool
  | .rx f => frameIn c.modulo f && (match c.inRead with | some r => r.rx.isNone | none => true)
  | .readRet (.error e) => c.inRead.isSome && decide (e ≠ 0)
  | .readRet (.ok n) =>
    match c.inRead with
    | some r => match c.rd[r.idx]? with | some d => decide (n ≤ d.rest.length) | none => true
    | none => false
  | .tx (.fail e) => decide (e ≠ 0)
  | .childErr e => decide (e ≠ 0)
  | _ => true

/-- Events one after the other; `none` if one of them is undefined behaviour. -/
def run (c : Chan) : List Ev → Option Chan
  | [] => some c
  | e :: l => (step c e).bind (run · l)

/-- Every event can happen when it does. -/
def runPossible (c : Chan) : List Ev → Bool
  | [] => true
  | e :: l => possible c e && (match step c e with | some c => runPossible c l | none => true)

/-- A channel as `ax25_chan_alloc` makes it, :5313-:5473. -/
def alloc (f : Conf) : Chan :=
  { conf := f, readwindow := 0, writewindow := 0, maxWrite := 0, maxRetries := 0, extended := 0, modulo := 0,
    rd := List.replicate f.readwindow ⟨[], 0⟩, readPos := 0, readLen := 0, inRead := none, readEnabled := false,
    wr := List.replicate f.writewindow ⟨List.replicate f.maxWrite 0, 0, 0, 0, false⟩, writePos := 0, writeLen := 0, sendLen := 0,
    vs := 0, vr := 0, va := 0, cmdrsp := [], state := .closed, inChans := false, err := 0, gotFirst := false, peerBsy := false,
    ownBsy := false, inRej := false, ackPending := 0, pollPending := false, dataPSent := false, retryCount := 0 }

/-- `i_ax25_chan_open` with an open base, :4574-:4638, with `ax25_chan_prestart_connect` and `ax25_chan_start_connect`,
:2479-:2503. -/
def openChan (c : Chan) : Chan :=
  let c := { c with writewindow := u8 c.conf.writewindow, readwindow := u8 c.conf.readwindow, maxWrite := c.conf.maxWrite % 65536,
                    maxRetries := c.conf.maxRetries, inChans := true }
  sendSabm (setExtended { resetData c with state := .inOpen } (c.conf.extended ≠ 0) [])

/-- A new channel for a SABM or SABME, `ax25_chan_handle_sabm`, :2777-:2835. -/
def acceptChan (f : Conf) (pf extended : Bool) (data : List UInt8) : Chan :=
  let c := sendRsp (setExtended { alloc f with state := .opn, inChans := true } extended data) (.unn .ua) pf
  if c.extended ≠ 0 then sendCmd c (.unn .xid) true else c

/-- What `ax25_readconf` accepts, :5236-:5290. -/
def confOk (f : Conf) : Bool :=
  f.srtv ≠ 0 && f.readwindow ≠ 0 && f.writewindow ≠ 0 && f.extended ≤ 2 &&
    (if f.extended ≠ 0 then f.writewindow ≤ 127 && f.readwindow ≤ 127 else f.writewindow ≤ 7 && f.readwindow ≤ 7)

end Gensio.Ax25
