/-!
# Reliable packet filter

Model of lib/gensio_relpkt.c: one end of a connection, function by function, and two ends connected by a network.

Simplifications:
* Sequence numbers (`uint8_t`) are natural numbers below 256 with explicit wrapping.  Sizes do not wrap: `max_pktsize`
  is assumed to be at most 65532 where it matters (`p->len` has 16 bits).
* `xmitpkts[i].data` holds the bytes of the packet (header and payload) instead of an array with a length; the ack byte
  is zero until the packet is sent.  `recvpkts[i].data` holds the payload.
* `none` stands for a failed `assert`, a division by zero or an access outside an array.
* Loops over sequence numbers (`seq != last`) run `(last - first) mod 256` times.
* Locks are left out; the handlers of the upper and lower layer are parameters: what they answer.
* Logging, starting the timer, and the values of timeouts are left out.
* `o->zalloc` succeeds.
-/

namespace Gensio.Relpkt

/-- `enum relpkt_state`, :76-224. -/
inductive St
  | closed | waitInit | waitInitRsp | opened | closeClear | closeRsp | remClosed
deriving Repr, DecidableEq

/-- `struct pkt` (:226-238) of the transmit side. -/
structure XPkt where
  data : List UInt8
  sent : Bool
  eom : Bool
deriving Repr, DecidableEq

/-- `struct pkt` (:226-238) of the receive side. -/
structure RPkt where
  data : List UInt8
  start : Nat
  ready : Bool
  eom : Bool
deriving Repr, DecidableEq

/-- The transmit part of `struct relpkt_filter`, :275-282. -/
structure Tx where
  maxSize : Nat
  max : Nat
  acked : Nat
  send : Nat
  first : Nat
  pkts : List XPkt
  waiting : Nat
deriving Repr, DecidableEq

/-- The receive part of `struct relpkt_filter`, :260-263. -/
structure Rx where
  exp : Nat
  del : Nat
  pos : Nat
  pkts : List RPkt
deriving Repr, DecidableEq

/-- Error returns. -/
inductive Err
  | ok | retry | inProgress | notReady | protoErr | timedOut | remClose | tooBig | lower | upper
deriving Repr, DecidableEq

/-- `struct relpkt_filter`, :240-304.  `resend` is what `resend_pkt` holds behind its first byte. -/
structure Rp where
  server : Bool
  maxSize : Nat
  maxPkt : Nat
  maxTimeouts : Nat
  state : St
  err : Err
  rx : Rx
  tx : Tx
  sinceAck : Nat
  sendSince : Bool
  sendInit : Bool
  initRsp : Bool
  initRetry : Nat
  sendClose : Bool
  closeRetry : Nat
  sendAck : Bool
  sendResend : Bool
  resend : List UInt8
  lastTimeoutAck : Nat
  ackCount : Nat
deriving Repr, DecidableEq

/-- A filter as allocated, gensio_relpkt_filter_raw_alloc :1246-1299. -/
def Rp.init (server : Bool) (maxSize maxPkt maxTimeouts : Nat) : Rp where
  server := server
  maxSize := maxSize
  maxPkt := maxPkt
  maxTimeouts := maxTimeouts
  state := .closed
  err := .ok
  rx := ⟨0, 0, 0, List.replicate maxPkt ⟨[], 0, false, false⟩⟩
  tx := ⟨0, 0, 0, 0, 0, List.replicate maxPkt ⟨[], false, false⟩, 0⟩
  sinceAck := 0
  sendSince := false
  sendInit := false
  initRsp := false
  initRetry := 0
  sendClose := false
  closeRetry := 0
  sendAck := false
  sendResend := false
  resend := []
  lastTimeoutAck := 0
  ackCount := 0

/-- `uint8_t` values. -/
def u8 (n : Nat) : Nat := n % 256

/-- Difference of two `uint8_t` values as `uint8_t`. -/
def sub8 (a b : Nat) : Nat := (a + 256 - b) % 256

/-- `seq_inside`, :341-350. -/
def seqInside (seq first next : Nat) : Bool :=
  if first ≤ next then decide (first ≤ seq) && decide (seq < next) else decide (first ≤ seq) || decide (seq < next)

/-- `xmitpkt_pos`, :358-362. -/
def Tx.slot (t : Tx) (pos : Nat) : Option Nat :=
  if t.max = 0 then none else some (u8 ((t.first + u8 pos) % t.max))

/-- `recvpkt_pos`, :352-356. -/
def Rx.slot (x : Rx) (maxPkt pos : Nat) : Option Nat :=
  if maxPkt = 0 then none else some (u8 ((x.pos + u8 pos) % maxPkt))

/-- The loop of `resend_packets`, :364-378: `n` packets from `i` behind the first unacknowledged one on. -/
def Tx.resend (t : Tx) : Nat → Nat → Option Tx
  | _, 0 => some t
  | i, n + 1 =>
    match t.slot i with
    | none => none
    | some pos =>
      match t.pkts[pos]? with
      | none => none
      | some p =>
        if p.sent then
          ({ t with pkts := t.pkts.set pos { p with sent := false }, waiting := t.waiting + 1 } : Tx).resend (i + 1) n
        else t.resend (i + 1) n

/-- `resend_packets`, :364-378. -/
def Tx.resendPkts (t : Tx) (first last : Nat) : Option Tx := t.resend (sub8 first t.acked) (sub8 last first)

/-- The loop of `first_xmitpkt_to_send`, :386-391, `n` packets from `i` on; reaching the end is `assert(0)`. -/
def Tx.firstLoop (t : Tx) : Nat → Nat → Option Nat
  | _, 0 => none
  | i, n + 1 =>
    match t.slot i with
    | none => none
    | some pos =>
      match t.pkts[pos]? with
      | none => none
      | some p => if p.sent then t.firstLoop (i + 1) n else some pos

/-- `first_xmitpkt_to_send`, :380-393. -/
def Tx.firstToSend (t : Tx) : Option Nat := t.firstLoop 0 (sub8 t.send t.acked)

/-- The loop of `handle_ack`, :451-465, `n` times. -/
def Tx.ackLoop (t : Tx) : Nat → Option Tx
  | 0 => some t
  | n + 1 =>
    match t.pkts[t.first]? with
    | none => none
    | some p =>
      if p.sent then
        match t.slot 1 with
        | none => none
        | some f => ({ t with first := f, acked := u8 (t.acked + 1) } : Tx).ackLoop n
      else if t.waiting = 0 then none
      else
        match t.slot 1 with
        | none => none
        | some f =>
          ({ t with pkts := t.pkts.set t.first { p with sent := true }, waiting := t.waiting - 1, first := f,
                    acked := u8 (t.acked + 1) } : Tx).ackLoop n

/-- `handle_ack`, :439-470; the inner `none` is its error return. -/
def Tx.handleAck (t : Tx) (seq : Nat) : Option (Option Tx) :=
  if seqInside seq t.acked (u8 (t.send + 1)) then
    match t.ackLoop (sub8 seq t.acked) with
    | none => none
    | some t => some (some t)
  else some none

/-- `request_resend`, :424-437. -/
def Rp.requestResend (r : Rp) (first last : Nat) : Rp :=
  let r := if r.sendResend then r else { r with resend := [], sendResend := true }
  if 1 + r.resend.length + 1 ≥ 51 then r
  else { r with resend := r.resend ++ [UInt8.ofNat first, UInt8.ofNat last], ackCount := 0 }

/-- `relpkt_try_connect`, :537-596. -/
def Rp.tryConnect (r : Rp) (wasTimeout : Bool) : Option (Rp × Err) :=
  match r.state with
  | .waitInitRsp =>
    if wasTimeout then
      if r.initRetry + 1 > 5 then some ({ r with initRetry := r.initRetry + 1 }, .timedOut)
      else some ({ r with initRetry := r.initRetry + 1, sendInit := true, initRsp := false }, .retry)
    else some (r, .inProgress)
  | .closed =>
    if r.server then some ({ r with state := .waitInit }, .inProgress)
    else some ({ r with state := .waitInitRsp, sendInit := true, initRsp := false }, .retry)
  | .waitInit => some (r, .inProgress)
  | .remClosed => some (r, .remClose)
  | .opened => some (r, .ok)
  | .closeClear => some (r, .notReady)
  | .closeRsp => some (r, .notReady)

/-- `i_relpkt_filter_timeout`, :1136-1169. -/
def Rp.timeout (r : Rp) : Option (Rp × Err) :=
  if r.sinceAck + 1 > r.maxTimeouts then some ({ r with sinceAck := r.sinceAck + 1, err := .timedOut }, .timedOut)
  else
    let r := { r with sinceAck := r.sinceAck + 1, sendSince := false, sendAck := r.sendAck || !r.sendSince }
    if r.tx.acked = r.tx.send then some (r, .ok)
    else if r.tx.acked = r.lastTimeoutAck then
      if r.ackCount + 1 > 1 then
        match r.tx.resendPkts r.tx.acked r.tx.send with
        | none => none
        | some t => some ({ r with tx := t, ackCount := 0 }, .ok)
      else some ({ r with ackCount := r.ackCount + 1 }, .ok)
    else some ({ r with ackCount := 0, lastTimeoutAck := r.tx.acked }, .ok)

/-- `relpkt_try_disconnect`, :598-683. -/
def Rp.tryDisconnect (r : Rp) (wasTimeout : Bool) : Option (Rp × Err) :=
  match r.state with
  | .waitInit => some (r, .ok)
  | .closed | .remClosed =>
    if !r.sendClose then some (r, .ok)
    else if wasTimeout then
      match r.timeout with
      | none => none
      | some (r, _) => some (r, .retry)
    else some (r, .inProgress)
  | .opened =>
    if r.tx.acked = r.tx.send then some ({ r with state := .closeRsp, sendClose := true }, .retry)
    else some ({ r with state := .closeClear }, .retry)
  | .closeClear =>
    if r.err ≠ .ok then some (r, r.err)
    else
      let r := if r.tx.acked = r.tx.send then { r with state := .closeRsp, sendClose := true } else r
      if wasTimeout then
        match r.timeout with
        | none => none
        | some (r, _) => some (r, .retry)
      else some (r, .inProgress)
  | .closeRsp =>
    if wasTimeout then
      if r.closeRetry + 1 > 5 then some ({ r with closeRetry := r.closeRetry + 1 }, .timedOut)
      else some ({ r with closeRetry := r.closeRetry + 1 }, .retry)
    else some (r, .inProgress)
  | .waitInitRsp => none

/-! ### Sending -/

/-- The loop that fills a packet in `relpkt_ul_write`, :711-725: the payload and `trunc`. -/
def fill (max : Nat) : List (List UInt8) → List UInt8 → List UInt8 × Bool
  | [], d => (d, false)
  | b :: bs, d =>
    if b.length + d.length > max then (d ++ b.take (max - d.length), true)
    else if (d ++ b).length = max then (d ++ b, false)
    else fill max bs (d ++ b)

/-- `nrqueued` as an `unsigned int`, :506, :515, :700. -/
def Tx.nrQueued (t : Tx) : Nat := if t.acked ≤ t.send then t.send - t.acked else 2 ^ 32 - (t.acked - t.send)

/-- The first part of `relpkt_ul_write`, :699-740: taking data from the user.  The second component is `*rcount`.
`cap` is the size of the buffer without header, `max_pktsize`. -/
def Tx.put (t : Tx) (cap : Nat) (sg : List (List UInt8)) (eom : Bool) : Option (Tx × Nat) :=
  if sg = [] ∨ t.nrQueued ≥ t.max then some (t, 0)
  else
    match t.slot t.nrQueued with
    | none => none
    | some pos =>
      match t.pkts[pos]? with
      | none => none
      | some p =>
        match fill t.maxSize sg [] with
        | (payload, trunc) =>
          if payload.length > cap then none
          else if payload.length > 0 then
            let e := p.eom || (!trunc && eom)
            let q : XPkt := ⟨[UInt8.ofNat (0x20 + e.toNat), 0, UInt8.ofNat t.send] ++ payload, false, e⟩
            some ({ t with pkts := t.pkts.set pos q, send := u8 (t.send + 1), waiting := t.waiting + 1 }, payload.length)
          else some (t, 0)

/-- What `relpkt_ul_write` sends, :742-772. -/
inductive Sel
  | nothing | init | data (pos : Nat) | resend | ack | close
deriving Repr, DecidableEq

/-- `init_pkt` as set up by `send_init`, :395-404. -/
def Rp.initPkt (r : Rp) : List UInt8 :=
  [UInt8.ofNat (0x10 + r.initRsp.toNat), 0, UInt8.ofNat r.maxPkt, UInt8.ofNat (r.maxSize / 256), UInt8.ofNat r.maxSize]

/-- The choice of the packet to send in `relpkt_ul_write`, :742-772. -/
def Rp.select (r : Rp) : Option (Rp × Sel × List UInt8) :=
  if r.sendInit then some (r, .init, r.initPkt)
  else if r.tx.waiting ≠ 0 then
    match r.tx.firstToSend with
    | none => none
    | some pos =>
      match r.tx.pkts[pos]? with
      | none => none
      | some p =>
        let d := p.data.set 1 (UInt8.ofNat r.rx.del)
        some ({ r with tx := { r.tx with pkts := r.tx.pkts.set pos { p with data := d } }, sendAck := false }, .data pos, d)
  else if r.sendResend then some (r, .resend, 0x30 :: r.resend)
  else if r.sendAck then some (r, .ack, [0x20, UInt8.ofNat r.rx.del, 0])
  else if r.sendClose then some (r, .close, [0x40, 0, 0])
  else some (r, .nothing, [])

/-- What the lower layer does with a packet. -/
inductive Lower
  | fail | refuse | part | take
deriving Repr, DecidableEq

/-- The end of `relpkt_ul_write` after a packet was taken, :798-809. -/
def Rp.sent (r : Rp) : Sel → Option (Rp × Err)
  | .nothing => some (r, .ok)
  | .init => some ({ r with sendInit := false }, .ok)
  | .data pos =>
    match r.tx.pkts[pos]? with
    | none => none
    | some p =>
      if r.tx.waiting = 0 then none
      else some ({ r with tx := { r.tx with pkts := r.tx.pkts.set pos { p with sent := true }, waiting := r.tx.waiting - 1 },
                          sendSince := true }, .ok)
  | .resend => some ({ r with sendResend := false }, .ok)
  | .ack => some ({ r with sendAck := false }, .ok)
  | .close =>
    if r.state = .remClosed then some ({ r with sendClose := false, err := .remClose }, .remClose)
    else some ({ r with sendClose := false }, .ok)

/-- The second part of `relpkt_ul_write`, :742-812: the packet taken by the lower layer, if any. -/
def Rp.push (r : Rp) (ll : Lower) : Option (Rp × Err × Option (List UInt8)) :=
  match r.select with
  | none => none
  | some (r, .nothing, _) => some (r, .ok, none)
  | some (r, sel, buf) =>
    match ll with
    | .fail => some (r, .lower, none)
    | .refuse => some (r, .ok, none)
    | .part => some (r, .tooBig, none)
    | .take =>
      match r.sent sel with
      | none => none
      | some (r, e) => some (r, e, some buf)

/-- `relpkt_ul_write`, :685-816: number of bytes accepted and packet given to the lower layer. -/
def Rp.ulWrite (r : Rp) (sg : List (List UInt8)) (eom : Bool) (ll : Lower) :
    Option (Rp × Err × Nat × Option (List UInt8)) :=
  match r.tx.put r.maxSize sg eom with
  | none => none
  | some (t, n) =>
    match ({ r with tx := t } : Rp).push ll with
    | none => none
    | some (r, e, p) => some (r, e, n, p)

/-! ### Receiving -/

/-- How the processing of a packet in `relpkt_ll_write` goes on: to `deliver_recv`, to `out_unlock` or to
`protocol_err`. -/
inductive Res
  | deliver | stop | proto
deriving Repr, DecidableEq

/-- The settings taken from an init packet, :874-883, :892-897. -/
def Rp.setWindow (r : Rp) (b2 b3 b4 : UInt8) : Rp :=
  { r with tx := { r.tx with max := min b2.toNat r.maxPkt, maxSize := min (b3.toNat * 256 + b4.toNat) r.maxSize } }

/-- `RELPKT_MSG_INIT`, :859-915. -/
def Rp.onInit (r : Rp) (buf : List UInt8) : Option (Rp × Res) :=
  match buf with
  | b0 :: _ :: b2 :: b3 :: b4 :: _ =>
    match r.state with
    | .closed | .closeRsp | .remClosed => some ({ r with sendClose := true }, .deliver)
    | .waitInit =>
      if b0.toNat % 2 = 0 then
        if b2 = 0 then some ({ r with tx := { r.tx with max := 0 } }, .proto)
        else some ({ (r.setWindow b2 b3 b4) with sendInit := true, initRsp := true, state := .opened }, .deliver)
      else some (r, .deliver)
    | .waitInitRsp =>
      if b0.toNat % 2 = 1 then some ({ (r.setWindow b2 b3 b4) with state := .opened }, .deliver) else some (r, .deliver)
    | .opened | .closeClear =>
      if b0.toNat % 2 = 0 then
        match r.tx.resendPkts r.tx.acked r.tx.send with
        | none => none
        | some t => some ({ r with sendInit := true, initRsp := true, tx := t }, .deliver)
      else some (r, .deliver)
  | _ => some (r, .proto)

/-- Storing a packet, :958-965. -/
def Rp.store (r : Rp) (ppos : Nat) (payload : List UInt8) (eom : Bool) : Option Rp :=
  match r.rx.pkts[ppos]? with
  | none => none
  | some p =>
    if p.ready then some r
    else if payload.length > r.maxSize then none
    else some { r with rx := { r.rx with pkts := r.rx.pkts.set ppos ⟨payload, 0, true, eom⟩ } }

/-- The data of a data packet in the open state, :946-965. -/
def Rp.takeData (r : Rp) (seq : Nat) (payload : List UInt8) (eom : Bool) : Option Rp :=
  let pos := sub8 seq r.rx.del
  if pos > r.maxPkt then some r
  else
    match r.rx.slot r.maxPkt pos with
    | none => none
    | some ppos =>
      let r :=
        if seq = r.rx.exp then { r with rx := { r.rx with exp := u8 (r.rx.exp + 1) } }
        else if seqInside seq r.rx.del r.rx.exp then r
        else
          let r := r.requestResend r.rx.exp (sub8 seq 1)
          { r with rx := { r.rx with exp := u8 (seq + 1) } }
      r.store ppos payload eom

/-- `RELPKT_MSG_DATA` in the states `RELPKT_OPEN` and `RELPKT_WAITING_CLOSE_CLEAR`, :926-965. -/
def Rp.onDataOpen (r : Rp) (b0 b1 b2 : UInt8) (payload : List UInt8) : Option (Rp × Res) :=
  if payload.length > r.maxSize then some (r, .proto)
  else
    match r.tx.handleAck b1.toNat with
    | none => none
    | some none => some (r, .stop)
    | some (some t) =>
      let r := { r with tx := t, sinceAck := 0 }
      if r.state ≠ .opened then
        if r.tx.acked = r.tx.send then some ({ r with state := .closeRsp, sendClose := true }, .deliver)
        else some (r, .deliver)
      else if payload = [] then some (r, .deliver)
      else
        match r.takeData b2.toNat payload (b0.toNat % 2 = 1) with
        | none => none
        | some r => some (r, .deliver)

/-- `RELPKT_MSG_DATA`, :917-971. -/
def Rp.onData (r : Rp) (buf : List UInt8) : Option (Rp × Res) :=
  match buf with
  | b0 :: b1 :: b2 :: payload =>
    if r.state = .opened ∨ r.state = .closeClear then r.onDataOpen b0 b1 b2 payload else some (r, .deliver)
  | _ => some (r, .deliver)

/-- The loop of `RELPKT_MSG_RESEND`, :990-1005. -/
def Tx.onResend (t : Tx) : List UInt8 → Option (Tx × Res)
  | s :: e :: rest =>
    if !seqInside s.toNat t.acked t.send then some (t, .proto)
    else if !seqInside e.toNat t.acked t.send then some (t, .proto)
    else
      match t.resendPkts s.toNat (u8 (e.toNat + 1)) with
      | none => none
      | some t => t.onResend rest
  | _ => some (t, .deliver)

/-- The switch of `relpkt_ll_write`, :858-1041, for a packet of at least three bytes. -/
def Rp.process (r : Rp) (buf : List UInt8) : Option (Rp × Res) :=
  match (buf.headD 0).toNat / 16 with
  | 1 => r.onInit buf
  | 2 => r.onData buf
  | 3 =>
    match r.state with
    | .closed | .waitInit | .waitInitRsp | .remClosed => some (r, .deliver)
    | .opened | .closeClear | .closeRsp =>
      if (buf.length - 1) % 2 ≠ 0 then some (r, .proto)
      else
        match r.tx.onResend (buf.drop 1) with
        | none => none
        | some (t, res) => some ({ r with tx := t }, res)
  | 4 =>
    match r.state with
    | .closed | .waitInit | .remClosed => some (r, .deliver)
    | .waitInitRsp | .closeRsp => some ({ r with state := .closed }, .deliver)
    | .opened | .closeClear => some ({ r with state := .remClosed, sendClose := true }, .deliver)
  | _ => some (r, .proto)

/-- The delivery part of `relpkt_ll_write`, :1043-1062.  `take` is the answer of the upper layer: an error or how many
bytes it takes.  Third component: the bytes taken and whether they completed a packet with the end of message mark. -/
def Rp.deliver (r : Rp) (take : Option Nat) : Option (Rp × Err × List UInt8 × Bool) :=
  match r.rx.pkts[r.rx.pos]? with
  | none => none
  | some p =>
    if !p.ready then some (r, .ok, [], false)
    else
      match take with
      | none => some (r, .upper, [], false)
      | some count =>
        if count ≥ p.data.length - p.start then
          match r.rx.slot r.maxPkt 1 with
          | none => none
          | some pos =>
            some ({ r with rx := { r.rx with pkts := r.rx.pkts.set r.rx.pos { p with ready := false }, pos := pos,
                                             del := u8 (r.rx.del + 1) },
                           sendAck := true }, .ok, p.data.drop p.start, p.eom)
        else
          some ({ r with rx := { r.rx with pkts := r.rx.pkts.set r.rx.pos { p with start := p.start + count } } }, .ok,
            (p.data.drop p.start).take count, false)

/-- `relpkt_ll_write`, :818-1072. -/
def Rp.llWrite (r : Rp) (buf : List UInt8) (take : Option Nat) : Option (Rp × Err × List UInt8 × Bool) :=
  if r.err ≠ .ok then some (r, r.err, [], false)
  else if buf = [] then r.deliver take
  else if buf.length < 3 then some (r, .protoErr, [], false)
  else
    match r.process buf with
    | none => none
    | some (r, .deliver) => r.deliver take
    | some (r, .stop) => some (r, .ok, [], false)
    | some (r, .proto) => some (r, .protoErr, [], false)

/-! ### Two ends and a network -/

/-- An end of a connection: the filter, whether it is still being opened (the base calls `try_connect` only then, and
`try_disconnect` and writes of the user only afterwards, gensio_base.c:699-762, :1110-1157, :1350-1386), the data
accepted from and delivered to the user (each byte with a mark that says whether a message ends behind it), and how many
packets were accepted, acknowledged and delivered in all. -/
structure End where
  r : Rp
  opening : Bool
  accepted : List (UInt8 × Bool)
  delivered : List (UInt8 × Bool)
  nSent : Nat
  nAck : Nat
  nDel : Nat
deriving Repr, DecidableEq

/-- A packet in the network, with how many packets its sender knew to be acknowledged and had delivered when it was
sent. -/
structure Pk where
  bytes : List UInt8
  low : Nat
  ack : Nat
deriving Repr, DecidableEq

/-- Bytes with a mark at the last one. -/
def mark : List UInt8 → Bool → List (UInt8 × Bool)
  | [], _ => []
  | [b], m => [(b, m)]
  | b :: b' :: bs, m => (b, false) :: mark (b' :: bs) m

/-- Counting what a new state of the filter has accepted, seen acknowledged and delivered. -/
def End.upd (e : End) (r : Rp) : End :=
  { e with r := r, nSent := e.nSent + sub8 r.tx.send e.r.tx.send, nAck := e.nAck + sub8 r.tx.acked e.r.tx.acked,
           nDel := e.nDel + sub8 r.rx.del e.r.rx.del }

/-- What an end can do.  `write []` is the base asking for packets to send. -/
inductive Op
  | write (sg : List (List UInt8)) (eom : Bool) (ll : Lower)
  | recv (p : Pk) (take : Option Nat)
  | poll (take : Option Nat)
  | timeout
  | connect (wasTimeout : Bool)
  | disconnect (wasTimeout : Bool)
deriving Repr, DecidableEq

/-- An operation at an end; the packets given to the network. -/
def End.step (e : End) : Op → Option (End × List Pk)
  | .write sg eom ll =>
    match e.r.ulWrite sg eom ll with
    | none => none
    | some (r, _, n, p) =>
      some ({ (e.upd r) with
                accepted := e.accepted ++ mark (sg.flatten.take n) (eom && decide (n = sg.flatten.length)) },
        p.toList.map fun b => ⟨b, (e.upd r).nAck, (e.upd r).nDel⟩)
  | .recv p take =>
    match e.r.llWrite p.bytes take with
    | none => none
    | some (r, _, d, m) => some ({ (e.upd r) with delivered := e.delivered ++ mark d m }, [])
  | .poll take =>
    match e.r.llWrite [] take with
    | none => none
    | some (r, _, d, m) => some ({ (e.upd r) with delivered := e.delivered ++ mark d m }, [])
  | .timeout =>
    match e.r.timeout with
    | none => none
    | some (r, _) => some (e.upd r, [])
  | .connect wt =>
    match e.r.tryConnect wt with
    | none => none
    | some (r, err) => some ({ (e.upd r) with opening := !(err = .ok) }, [])
  | .disconnect wt =>
    match e.r.tryDisconnect wt with
    | none => none
    | some (r, _) => some (e.upd r, [])

/-- Two ends and everything that was ever sent in each direction. -/
structure Sys where
  a : End
  b : End
  ab : List Pk
  ba : List Pk
deriving Repr, DecidableEq

/-- The system seen from the other side. -/
def Sys.swap (s : Sys) : Sys := ⟨s.b, s.a, s.ba, s.ab⟩

/-- An operation at the first end. -/
def Sys.stepA (s : Sys) (op : Op) : Option Sys :=
  match s.a.step op with
  | none => none
  | some (a, ps) => some { s with a := a, ab := s.ab ++ ps }

/-- An operation at one of the ends. -/
def Sys.step (s : Sys) (atA : Bool) (op : Op) : Option Sys :=
  if atA then s.stepA op
  else
    match s.swap.stepA op with
    | none => none
    | some s => some s.swap

/-- A new connection between ends with the given window sizes and packet sizes. -/
def Sys.init (serverA : Bool) (sizeA maxA toA sizeB maxB toB : Nat) : Sys :=
  ⟨⟨Rp.init serverA sizeA maxA toA, true, [], [], 0, 0, 0⟩, ⟨Rp.init (!serverA) sizeB maxB toB, true, [], [], 0, 0, 0⟩, [], []⟩

end Gensio.Relpkt
