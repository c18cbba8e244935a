import Verif.Model.Telnet
import Verif.Model.CLib
/-!
# Model of the RFC 2217 and RFC 1073 part of lib/sergensio_telnet.c

The serial settings a user asks for with `gensio_acontrol` or `gensio_control` on a telnet gensio:
what is sent, what the other end reports, the list of requests waiting for an answer and its timer.
The option bytes go through `telnet_send_option` and `process_telnet_data`, see Model/Telnet.lean.

`none` is undefined behaviour: a read outside the received option, or the signed shift
`option[2] << 24` of a byte of 128 or more.
-/
namespace Gensio.Rfc2217

/-- A C string as bytes. -/
def str (s : String) : List UInt8 := s.toList.map fun c => c.toNat.toUInt8

/-- The asynchronous controls of `stel_acontrol`, lib/sergensio_telnet.c:1588-1653. -/
inductive Kind where
  | baud | datasize | parity | stopbits | flowcontrol | iflowcontrol | sbreak | dtr | rts | flush
  | modemMask | lineMask | signature
deriving DecidableEq, Repr

/-- First argument after `sdata` of `stel_queue` / `stel_queue_and_send` for each control,
:1160-1401, :1460-1545. -/
def Kind.opt : Kind → Nat
  | .signature => 0 | .baud => 1 | .datasize => 2 | .parity => 3 | .stopbits => 4
  | .flowcontrol | .iflowcontrol | .sbreak | .dtr | .rts => 5
  | .lineMask => 10 | .modemMask => 11 | .flush => 12

/-- `xmitbase`, same lines. -/
def Kind.base : Kind → Int
  | .sbreak => 4 | .dtr => 7 | .rts => 10 | .iflowcontrol => 13 | _ => 0

/-- `maxval` as given to `stel_queue_and_send` (0 for the two that call `stel_queue`). -/
def Kind.max : Kind → Int
  | .datasize => 8 | .parity => 5 | .stopbits => 3 | .flowcontrol => 3 | .iflowcontrol => 6
  | .sbreak => 2 | .dtr => 2 | .rts => 2 | .flush => 3 | .modemMask => 255 | .lineMask => 255
  | .baud => 0 | .signature => 0

/-- The tables of names: `stel_parity_xlatstr` :1256-1265, `stel_flow_xlatstr` :1288-1295,
`stel_iflow_xlatstr` :1309-1317, `stel_on_off_xlatstr` :1331-1337, `stel_flush_xlatstr` :1522-1529;
values from include/gensio/gensio.h:124-196.  Empty for a control without a table. -/
def Kind.xlat : Kind → List (List UInt8 × Int)
  | .parity => [(str "0", 0), (str "", 0), (str "none", 1), (str "odd", 2), (str "even", 3), (str "mark", 4), (str "space", 5)]
  | .flowcontrol => [(str "0", 0), (str "", 0), (str "none", 1), (str "xonxoff", 2), (str "rtscts", 3)]
  | .iflowcontrol => [(str "0", 0), (str "", 0), (str "none", 1), (str "dcd", 4), (str "dtr", 5), (str "dsr", 6)]
  | .sbreak | .dtr | .rts => [(str "0", 0), (str "", 0), (str "on", 1), (str "off", 2)]
  | .flush => [(str "0", 0), (str "", 0), (str "recv", 1), (str "xmit", 2), (str "both", 3)]
  | _ => []

/-- Value of one digit in any base up to 16. -/
def digit (c : UInt8) : Option Nat :=
  if 48 ≤ c ∧ c ≤ 57 then some (c.toNat - 48)
  else if 97 ≤ c ∧ c ≤ 102 then some (c.toNat - 87)
  else if 65 ≤ c ∧ c ≤ 70 then some (c.toNat - 55) else none

/-- Value of the leading digits of base `b` after the value `acc`. -/
def digitsIn (b acc : Nat) : List UInt8 → Nat
  | [] => acc
  | c :: cs => match digit c with
    | some d => if d < b then digitsIn b (acc * b + d) cs else acc
    | none => acc

/-- `strtoul(s, NULL, 0)` as a 64 bit value (saturated at the largest one, negated after a minus
sign); also used for `strtol`, which differs only beyond 2^63. -/
def strtoul0 (s : List UInt8) : Nat :=
  let r := CLib.sign s
  let v := match r.2 with
    | 48 :: 120 :: t => digitsIn 16 0 t
    | 48 :: 88 :: t => digitsIn 16 0 t
    | 48 :: t => digitsIn 8 0 t
    | t => digitsIn 10 0 t
  if v > 18446744073709551615 then 18446744073709551615
  else if r.1 then (18446744073709551616 - v) % 18446744073709551616 else v

/-- Conversion to `int`. -/
def toInt (n : Nat) : Int :=
  if n % 4294967296 < 2147483648 then n % 4294967296 else (n % 4294967296 : Int) - 4294967296

/-- Conversion of an `int` to `unsigned char`. -/
def toByte (v : Int) : UInt8 := (v % 256).toNat.toUInt8

/-- Table `cisco_baud_rates`, :1043-1058: rate and the value Cisco uses for it. -/
def cisco : List (Int × Nat) :=
  [(300, 3), (600, 4), (1200, 5), (2400, 6), (4800, 7), (9600, 8), (19200, 10), (38400, 12), (57600, 13), (115200, 14), (230400, 15)]

/-- `cisco_baud_to_baud`, :1066-1077. -/
def fromCisco (v : Nat) : Int := match cisco.find? (·.2 = v) with | some p => p.1 | none => 0
/-- `baud_to_cisco_baud`, :1083-1094. -/
def toCisco (v : Int) : Nat := match cisco.find? (·.1 = v) with | some p => p.2 | none => 0

/-- `struct stel_req`, :1012-1021.  `id` stands for `cdone` and its data (`none`: NULL).  `kind` is
the control the request was made for; the code keeps `xlatstr`, which follows from it. -/
structure Req where
  kind : Kind
  opt : Nat
  lo : Int
  hi : Int
  id : Option Nat
  left : Int
deriving DecidableEq, Repr

/-- What a done callback is given. -/
inductive Res where
  | text (s : List UInt8)
  | timedout
deriving DecidableEq, Repr

/-- Events reported with `gensio_cb`. -/
inductive Ev where
  | linestate (v : Int) | modemstate (v : Int) | flowState (v : Int)
  | signature (s : List UInt8)
  | set (k : Kind) (v : Int)
deriving DecidableEq, Repr

/-- `struct stel_data`, :1023-1041, and what it needs of the gensio: `isClient`, `serial`, whether
the base is open (`opened`), its timer (`timer`) and `timer_start_pending` (`pend`,
gensio_base.c:1873-1884).  `sent` are the options given to `send_option`, `cbs` the done callbacks,
`evs` the events; `acc` and `dropped` record the accepted requests and those freed unanswered. -/
structure Stel where
  isClient : Bool := true
  serial : Bool := true
  allow : Bool := true
  doRfc : Bool := false
  cisco : Bool := false
  reqs : List Req := []
  opened : Bool := false
  timer : Bool := false
  pend : Bool := false
  freed : Bool := false
  sent : List (List UInt8) := []
  cbs : List (Nat × Res) := []
  evs : List Ev := []
  acc : List Nat := []
  dropped : List Nat := []
deriving DecidableEq, Repr

/-- Error codes that matter here. -/
inductive Err where
  | ok | notsup | inval | nomem
deriving DecidableEq, Repr

/-- `start_timer` of the filter: `basen_start_timer_op`, gensio_base.c:1873-1884; starting a running
timer does nothing. -/
def startTimer (s : Stel) : Stel := if s.opened then { s with timer := true } else { s with pend := true }

/-- `time_left` of a new request, :1134-1140: `timeout` is seconds and nanoseconds. -/
def leftOf : Option (Int × Nat) → Int
  | some (secs, nsecs) => if nsecs > 0 then secs + 1 else secs
  | none => 5

/-- `stel_queue`, :1108-1158, for a control `k` with done callback `id`; `mem` tells whether the
allocation succeeds. -/
def queue (s : Stel) (k : Kind) (lo hi : Int) (id : Option Nat) (timeout : Option (Int × Nat)) (mem : Bool) :
    Stel × Err :=
  if !s.doRfc then (s, .notsup)
  else if !mem then (s, .nomem)
  else
    let hi := if hi = 0 then 2147483647 else hi
    let s := { s with reqs := s.reqs ++ [⟨k, k.opt, lo, hi, id, leftOf timeout⟩], acc := s.acc ++ id.toList }
    (startTimer s, .ok)

/-- `send_option`. -/
def send (s : Stel) (o : List UInt8) : Stel := { s with sent := s.sent ++ [o] }

/-- The value to send: conversion of the argument in `stel_queue_and_send`, :1209-1224; without an
argument (a get) it is 0. -/
def valOf (k : Kind) : Option (List UInt8) → Option Int
  | none => some 0
  | some t =>
    if k.xlat ≠ [] then (k.xlat.find? (·.1 = t)).map (·.2) else some (toInt (strtoul0 t))

/-- `stel_queue_and_send`, :1197-1244. -/
def queueAndSend (s : Stel) (k : Kind) (arg : Option (List UInt8)) (id : Option Nat)
    (timeout : Option (Int × Nat)) (mem : Bool) : Stel × Err :=
  match valOf k arg with
  | none => (s, .inval)
  | some val =>
    if val < 0 ∨ val > k.max then (s, .inval)
    else if s.isClient then
      let r := queue s k k.base (k.base + k.max) id timeout mem
      if r.2 ≠ .ok then r else (send r.1 [44, k.opt.toUInt8, toByte (val + k.base)], .ok)
    else (send s [44, (k.opt + 100).toUInt8, toByte (val + k.base)], .ok)

/-- The bytes of a baud rate, :1188-1191. -/
def baudBytes (v : Int) : List UInt8 :=
  [toByte (v / 16777216), toByte (v / 65536), toByte (v / 256), toByte v]

/-- `stel_baud`, :1160-1195. -/
def setBaud (s : Stel) (arg : Option (List UInt8)) (id : Option Nat) (timeout : Option (Int × Nat)) (mem : Bool) :
    Stel × Err :=
  let baud := match arg with | some t => toInt (strtoul0 t) | none => 0
  let r := if s.isClient then queue s .baud 0 0 id timeout mem else (s, .ok)
  if r.2 ≠ .ok then r
  else
    let c : UInt8 := if s.isClient then 1 else 101
    (send r.1 (if s.cisco then [44, c, (toCisco baud).toUInt8] else [44, c] ++ baudBytes baud), .ok)

/-- `strncpy(dst, sig, n)`: the bytes before a NUL, filled up with zeros. -/
def strncpy (sig : List UInt8) (n : Nat) : List UInt8 :=
  let c := (sig.take n).takeWhile (· ≠ 0)
  c ++ List.replicate (n - c.length) 0

/-- `stel_signature`, :1372-1401 (`sig` has the length given). -/
def setSig (s : Stel) (sig : List UInt8) (id : Option Nat) (timeout : Option (Int × Nat)) (mem : Bool) : Stel × Err :=
  if s.isClient then
    let r := queue s .signature 0 0 id timeout mem
    if r.2 ≠ .ok then r else (send r.1 [44, 0], .ok)
  else (send s ([44, 100] ++ strncpy sig (min sig.length (Telnet.maxXmit - 2))), .ok)

/-- `stel_acontrol`, :1588-1653. -/
def acontrol (s : Stel) (k : Kind) (get : Bool) (data : List UInt8) (id : Option Nat)
    (timeout : Option (Int × Nat)) (mem : Bool) : Stel × Err :=
  if !s.serial then (s, .notsup)
  else
    let arg := if get then none else some data
    match k with
    | .baud => setBaud s arg id timeout mem
    | .signature => setSig s (if get then [] else data) id timeout mem
    | k => queueAndSend s k arg id timeout mem

/-- The synchronous controls of `stel_control`, :1552-1586, but for the flush (`queueAndSend` with no
callback) and the telnet break. -/
inductive Ctl where
  | modemstate | linestate | sendModemstate | sendLinestate | flowState
deriving DecidableEq, Repr

/-- `stel_control`, :1552-1586, with `stel_send` :1403-1418, `stel_modemstate` :1420-1433,
`stel_linestate` :1435-1448, `stel_send_modemstate` :1450-1458, `stel_send_linestate` :1473-1479 and
`stel_flowcontrol_state` :1494-1520. -/
def control (s : Stel) (c : Ctl) (data : List UInt8) : Stel × Err :=
  if !s.serial then (s, .notsup)
  else
    let v := strtoul0 data
    let d : Nat := if s.isClient then 0 else 100
    match c with
    | .modemstate => (send s [44, ((if s.isClient then 11 else 7) + d).toUInt8, v.toUInt8], .ok)
    | .linestate => (send s [44, ((if s.isClient then 10 else 6) + d).toUInt8, v.toUInt8], .ok)
    | .sendModemstate => (send s [44, (7 + d).toUInt8, v.toUInt8], .ok)
    | .sendLinestate => (send s [44, (6 + d).toUInt8, v.toUInt8], .ok)
    | .flowState =>
      let on := if data = str "true" ∨ data = str "on" then true
        else if data = str "false" ∨ data = str "off" then false else v ≠ 0
      (send s [44, ((if on then 8 else 9) + d).toUInt8], .ok)

/-- The four bytes of a baud rate put together, :1704-1707 and :1964-1967: the shift of a byte of
128 or more into the sign bit is undefined. -/
def baudVal (b0 b1 b2 b3 : UInt8) : Option Int :=
  if b0 ≥ 128 then none
  else some ((b0.toNat * 16777216 + b1.toNat * 65536 + b2.toNat * 256 + b3.toNat : Nat) : Int)

/-- The event part of `stels_cb_com_port_cmd` for the commands with one value, :1973-2067. -/
def oneVal (c v : UInt8) : Option Ev :=
  if c = 2 then some (.set .datasize v.toNat)
  else if c = 3 then some (.set .parity v.toNat)
  else if c = 4 then some (.set .stopbits v.toNat)
  else if c = 5 then
    if v ≤ 3 then some (.set .flowcontrol v.toNat)
    else if v ≤ 6 then some (.set .sbreak (v.toNat - 4))
    else if v ≤ 9 then some (.set .dtr (v.toNat - 7))
    else if v ≤ 12 then some (.set .rts (v.toNat - 10))
    else if v ≤ 19 then some (.set .iflowcontrol (v.toNat - 13))
    else none
  else if c = 10 then some (.set .lineMask v.toNat)
  else if c = 11 then some (.set .modemMask v.toNat)
  else if c = 12 then some (.set .flush v.toNat)
  else none

/-- Report an event. -/
def Stel.ev (s : Stel) (e : Ev) : Stel := { s with evs := s.evs ++ [e] }

/-- The baud rate in option `o`, :1697-1709 and :1957-1971: the rate, and whether it was in the form
of Cisco; `none` inside if the option is too short. -/
def baudOf (o : List UInt8) : Option (Option (Int × Bool)) :=
  if o.length < 3 then some none
  else (o[2]?).bind fun b0 =>
    if o.length < 6 then some (some (fromCisco b0.toNat, true))
    else (o[3]?).bind fun b1 => (o[4]?).bind fun b2 => (o[5]?).bind fun b3 =>
      (baudVal b0 b1 b2 b3).map fun v => some (v, false)

/-- `stels_cb_com_port_cmd`, :1936-2067: what a server makes of the option `o`. -/
def serverCmd (s : Stel) (o : List UInt8) : Option Stel :=
  if o.length < 2 then some s
  else (o[1]?).bind fun c =>
    if c ≥ 100 then some s
    else if c = 0 then some (s.ev (.signature (o.drop 2)))
    else if c = 1 then (baudOf o).map fun r =>
      match r with
      | none => s
      | some (v, ci) => ({ s with cisco := s.cisco || ci }).ev (.set .baud v)
    else if c = 8 then some (s.ev (.set .flowcontrol 1))
    else if c = 9 then some (s.ev (.set .flowcontrol 0))
    else if o.length < 3 then some s
    else (o[2]?).map fun v =>
      match oneVal c v with
      | some e => s.ev e
      | none => s

/-- The text of `snprintf("%d")`. -/
def decInt (v : Int) : List UInt8 := if v < 0 then 45 :: CLib.dec v.natAbs else CLib.dec v.natAbs

/-- The text reported for the value `val` answered to request `r`, :1766-1783. -/
def textOf (r : Req) (val : Int) : List UInt8 :=
  match r.kind.xlat.find? (·.2 = val - r.lo) with
  | some p => p.1
  | none => decInt (val - r.lo)

/-- Remove the first request that fits, :1745-1757. -/
def take (cmd : Nat) (val : Int) : List Req → Option (Req × List Req)
  | [] => none
  | r :: rs =>
    if r.opt = cmd ∧ r.lo ≤ val ∧ val ≤ r.hi then some (r, rs)
    else (take cmd val rs).map fun p => (p.1, r :: p.2)

/-- The end of `stelc_com_port_cmd`, :1745-1789: the answer `val` (or signature) to option `cmd`. -/
def answer (s : Stel) (cmd : Nat) (val : Int) (sig : Option (List UInt8)) : Stel :=
  match take cmd val s.reqs with
  | none => s
  | some (r, rs) =>
    let t := match sig with | some g => g | none => textOf r val
    { s with reqs := rs, cbs := s.cbs ++ r.id.toList.map fun i => (i, .text t) }

/-- `stelc_com_port_cmd`, :1673-1789: what a client makes of the option `o`. -/
def clientCmd (s : Stel) (o : List UInt8) : Option Stel :=
  if o.length < 2 then some s
  else (o[1]?).bind fun c =>
    if c < 100 then some s
    else if c = 100 then some (answer s 0 0 (some (o.drop 2)))
    else if c = 101 then (baudOf o).map fun r =>
      match r with
      | none => s
      | some (v, ci) => answer { s with cisco := s.cisco || ci } 1 v none
    else if c = 108 then some (s.ev (.flowState 1))
    else if c = 109 then some (s.ev (.flowState 0))
    else if o.length < 3 then some s
    else (o[2]?).map fun v =>
      if c = 106 then s.ev (.linestate v.toNat)
      else if c = 107 then s.ev (.modemstate v.toNat)
      else answer s (c.toNat - 100) v.toNat none

/-- The loop of `stelc_timeout`, :1823-1843: the requests kept and those that timed out.  When a
request is unlinked its `next` is cleared and the loop goes on with the request itself: it is
decremented once more, to -1, and its `next` ends the loop. -/
def tickLoop : List Req → List Req × List Req
  | [] => ([], [])
  | r :: rs =>
    if r.left - 1 = 0 then (rs, [r])
    else
      let q := tickLoop rs
      ({ r with left := r.left - 1 } :: q.1, q.2)

/-- `stelc_timeout`, :1816-1861, run by the timer of the base. -/
def tick (s : Stel) : Stel :=
  if !s.timer then s
  else
    let s := { s with timer := false }
    let q := tickLoop s.reqs
    let s := { s with reqs := q.1 }
    let s := if s.reqs ≠ [] then startTimer s else s
    { s with cbs := s.cbs ++ q.2.flatMap fun r => r.id.toList.map fun i => (i, Res.timedout) }

/-- `stelc_com_port_will_do`, :1655-1671: `yes` for TN_DO, else TN_DONT. -/
def willDo (s : Stel) (yes : Bool) : Stel := { s with doRfc := yes && s.allow }

/-- `basen_finish_open` with a pending timer, gensio_base.c:972-992. -/
def opn (s : Stel) : Stel := { s with opened := true, timer := s.timer || s.pend }

/-- `basen_finish_close` stops the timer, gensio_base.c:953-962; `telnet_filter_cleanup`,
sergensio_telnet.c:525-537, does not touch the requests. -/
def close (s : Stel) : Stel := { s with opened := false, timer := false }

/-- `stel_free`, :1869-1883. -/
def free (s : Stel) : Stel :=
  { s with freed := true, dropped := s.dropped ++ s.reqs.flatMap fun r => r.id.toList, reqs := [] }

/-- What can happen to a client. -/
inductive Op where
  | acontrol (k : Kind) (get : Bool) (data : List UInt8) (id : Option Nat) (timeout : Option (Int × Nat)) (mem : Bool)
  | control (c : Ctl) (data : List UInt8)
  | received (o : List UInt8)
  | tick
  | willDo (yes : Bool)
  | opn
  | close
  | free
deriving DecidableEq, Repr

/-- One of them. -/
def step (s : Stel) : Op → Option Stel
  | .acontrol k g d id t m => some (acontrol s k g d id t m).1
  | .control c d => some (control s c d).1
  | .received o => clientCmd s o
  | .tick => some (tick s)
  | .willDo y => some (willDo s y)
  | .opn => some (opn s)
  | .close => some (close s)
  | .free => some (free s)

/-- A run; nothing happens once the gensio was freed. -/
def run (s : Stel) : List Op → Option Stel
  | [] => some s
  | o :: os => if s.freed then some s else (step s o).bind fun s => run s os

/-! ### Window size, RFC 1073 -/

/-- The bytes `telnet_filter_control` sends for a window size, :597-613: as a command, so nothing is
doubled. -/
def nawsSend (w h : Nat) : List UInt8 :=
  [255, 250, 31, (w / 256).toUInt8, w.toUInt8, (h / 256).toUInt8, h.toUInt8, 255, 240]

/-- `stels_cb_rfc1073_cmd`, :2087-2107: the width and height reported for option `o`. -/
def nawsRecv (o : List UInt8) : Option (Option (Nat × Nat)) := do
  if o.length < 5 then return none
  let b1 ← o[1]?
  let b2 ← o[2]?
  let b3 ← o[3]?
  let b4 ← o[4]?
  return some (b1.toNat * 256 + b2.toNat, b3.toNat * 256 + b4.toNat)

/-- The option `handle_telnet_cmd` gives its handler for a command, lib/telnet.c:67-73. -/
def optOf (cmd : List UInt8) : Option (List UInt8) :=
  if cmd.length ≥ 3 ∧ cmd[1]? = some 250 then some (cmd.drop 2) else none

/-! ### Which side is the client -/

/-- `gensio_pparm_boolv` with "client" and "server" over the arguments: the last one counts. -/
def modeArgs (d : Bool) : List Bool → Bool
  | [] => d
  | m :: ms => modeArgs m ms

/-- `stel_setup`, :2167-2200: what the RFC 2217 half decides.  `args` are the `mode` arguments
(`true`: client). -/
def stelMode (dfltClient : Bool) (args : List Bool) : Bool := modeArgs dfltClient args

/-- `gensio_telnet_filter_alloc`, :842-911, as called at :2219-2225 (always with `true`): what the
telnet half decides.  `cfg` is the default "mode" of the configuration, if it is one of the two. -/
def filtMode (cfg : Option Bool) (args : List Bool) : Bool :=
  modeArgs (match cfg with | some m => m | none => true) args

end Gensio.Rfc2217
