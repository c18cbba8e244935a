import Verif.Model.Mem
/-!
# Model of lib/telnet.c and the write side of the telnet filter (lib/sergensio_telnet.c)

`process_telnet_data` hands each complete command to `handle_telnet_cmd`; here the receive
machine returns the bytes of that command (read from the command buffer with bounds
checks), and `handleCmd` below is `handle_telnet_cmd` on the option table.  An access outside
the 32 byte command buffer is the outcome `none`.
-/
namespace Gensio.Telnet

/-- TN_* constants, lib/telnet.h:14-22. -/
abbrev SE : UInt8 := 240
abbrev SB : UInt8 := 250
abbrev WILL : UInt8 := 251
abbrev WONT : UInt8 := 252
abbrev DO : UInt8 := 253
abbrev DONT : UInt8 := 254
abbrev IAC : UInt8 := 255

/-- MAX_TELNET_CMD_SIZE, lib/telnet.h:54. -/
abbrev maxCmd : Nat := 31

/-- The receive fields of `struct telnet_data_s`, lib/telnet.h:58-70. -/
structure Rx where
  cmd : Mem
  pos : Nat
  subIac : Bool
deriving DecidableEq, Repr

/-- `memset` of `telnet_init`, lib/telnet.c:308. -/
def Rx.init : Rx := { cmd := List.replicate (maxCmd + 1) 0, pos := 0, subIac := false }

/-- What one input byte produces: data for the user and/or a complete command. -/
structure Out where
  rx : Rx
  data : List UInt8 := []
  cmd : Option (List UInt8) := none
deriving DecidableEq, Repr

/-- `td->telnet_cmd[td->telnet_cmd_pos++] = b`. -/
def Rx.push (r : Rx) (b : UInt8) : Option Rx := do
  let m ← r.cmd.write r.pos [b]
  some { r with cmd := m, pos := r.pos + 1 }

/-- `handle_telnet_cmd(td, td->telnet_cmd_pos); td->telnet_cmd_pos = 0; done = 1;` -/
def Rx.finish (r : Rx) : Option Out := do
  let d ← r.cmd.read 0 r.pos
  some { rx := { r with pos := 0 }, cmd := some d }

/-- One pass of the loop of `process_telnet_data`, lib/telnet.c:187-260. -/
def rxByte (r : Rx) (b : UInt8) : Option Out :=
  if r.pos ≠ 0 then
    if r.pos = 1 ∧ b = IAC then some { rx := { r with pos := 0 }, data := [b] }
    else if r.pos = 1 then do
      let r ← r.push b
      if b < SB then r.finish else some { rx := r }
    else if r.pos = 2 then do
      let r ← r.push b
      let c1 ← r.cmd.read 1 1
      if c1 = [SE] then some { rx := { r with pos := 0 } }
      else if c1 ≠ [SB] then r.finish
      else some { rx := r }
    else if r.subIac then
      if b = SE then do
        let r := { r with pos := r.pos - 1 }
        let o ← r.finish
        some { o with rx := { o.rx with subIac := false } }
      else if b = IAC then some { rx := { r with subIac := false } }
      else some { rx := { r with pos := r.pos - 1, subIac := false } }
    else do
      let r := if r.pos > maxCmd then { r with pos := maxCmd } else r
      let r ← r.push b
      some { rx := if b = IAC then { r with subIac := true } else r }
  else if b = IAC then do
    let r ← r.push IAC
    some { rx := { r with subIac := false } }
  else some { rx := r, data := [b] }

/-- Result of one call of `process_telnet_data`: new state, data written to `outdata`,
number of input bytes used, the command handled (at most one per call). -/
structure RxRes where
  rx : Rx
  out : List UInt8
  used : Nat
  cmds : List (List UInt8)
deriving DecidableEq, Repr

/-- `process_telnet_data`, lib/telnet.c:170-267: the loop `for (…; !done && i < inlen &&
j < outlen; i++)`. -/
def processData (r : Rx) (outlen : Nat) : List UInt8 → Option RxRes
  | [] => some ⟨r, [], 0, []⟩
  | b :: rest =>
    if outlen = 0 then some ⟨r, [], 0, []⟩
    else do
      let o ← rxByte r b
      match o.cmd with
      | some c => some ⟨o.rx, o.data, 1, [c]⟩
      | none =>
        let q ← processData o.rx (outlen - o.data.length) rest
        some ⟨q.rx, o.data ++ q.out, q.used + 1, q.cmds⟩

/-- `process_telnet_xmit`, lib/telnet.c:269-297 (input shorter than 2^32): output and the
number of input bytes used. -/
def xmit (outlen : Nat) : List UInt8 → List UInt8 × Nat
  | [] => ([], 0)
  | b :: rest =>
    if b = IAC then
      if outlen < 2 then ([], 0)
      else
        let q := xmit (outlen - 2) rest
        (IAC :: IAC :: q.1, q.2 + 1)
    else
      if outlen < 1 then ([], 0)
      else
        let q := xmit (outlen - 1) rest
        (b :: q.1, q.2 + 1)

/-- A reader presenting a stream in pieces: each call offers the first `n` unconsumed bytes
with room for `outlen` bytes (callers of `telnet_ll_write` present unconsumed data again). -/
def feed (r : Rx) (stream : List UInt8) : List (Nat × Nat) → Option (RxRes × List UInt8)
  | [] => some (⟨r, [], 0, []⟩, stream)
  | (n, outlen) :: sched => do
    let a ← processData r outlen (stream.take n)
    let (q, rest) ← feed a.rx (stream.drop a.used) sched
    some (⟨q.rx, a.out ++ q.out, a.used + q.used, a.cmds ++ q.cmds⟩, rest)

/-- A sender giving data to `process_telnet_xmit` piece by piece (each call offers the first
`n` unsent bytes with room for `outlen` bytes): the stream produced and the unsent data. -/
def sendAll (data : List UInt8) : List (Nat × Nat) → List UInt8 × List UInt8
  | [] => ([], data)
  | (n, outlen) :: sched =>
    let a := xmit outlen (data.take n)
    let q := sendAll (data.drop a.2) sched
    (a.1 ++ q.1, q.2)

/-! ### Option negotiation -/

/-- `struct telnet_cmd`, lib/telnet.h:33-52: the state of one option. -/
structure Opt where
  option : UInt8
  iWill : Bool
  iDo : Bool
  sentWill : Bool
  sentDo : Bool
  remWill : Bool
  remDo : Bool
  hasHandler : Bool
deriving DecidableEq, Repr

/-- Search of `find_cmd`, lib/telnet.c:14-24 (`cmds` is the table before its end mark). -/
def findCmd (cmds : List Opt) (option : UInt8) : Option Opt := cmds.find? (·.option = option)

/-- Store back the entry found by `find_cmd`. -/
def update (o : Opt) : List Opt → List Opt
  | [] => []
  | c :: cs => if c.option = o.option then o :: cs else c :: update o cs

/-- The will/wont/do/dont part of `handle_telnet_cmd`, lib/telnet.c:74-132, for the command
IAC `verb` `option`.  `ans` is what `will_do_handler` answers if it is called.  Result: the
option table and the replies (verb, option) sent. -/
def negotiate (cmds : List Opt) (verb option : UInt8) (ans : Bool) :
    List Opt × List (UInt8 × UInt8) :=
  if verb = WILL then
    match findCmd cmds option with
    | none => (cmds, [(DONT, option)])
    | some c =>
      let rv := if !c.iDo && c.hasHandler then ans else c.iDo
      let c := if !c.iDo && c.hasHandler then { c with iDo := rv } else c
      let send := !rv || !c.sentDo
      let reply := if send then [(if rv then DO else DONT, option)] else []
      let c := if send then { c with sentDo := true } else c
      (update { c with remWill := rv } cmds, reply)
  else if verb = WONT then
    match findCmd cmds option with
    | none => (cmds, [])
    | some c =>
      let send := c.remWill || !c.sentDo
      let reply := if send then [(DONT, option)] else []
      let c := if send then { c with sentDo := true } else c
      (update { c with remWill := false } cmds, reply)
  else if verb = DO then
    match findCmd cmds option with
    | none => (cmds, [(WONT, option)])
    | some c =>
      let rv := if c.hasHandler then ans else c.iWill
      let c := if c.hasHandler then { c with iWill := rv } else c
      let send := !rv || !c.sentWill
      let reply := if send then [(if rv then WILL else WONT, option)] else []
      let c := if send then { c with sentWill := true } else c
      (update { c with remDo := rv } cmds, reply)
  else if verb = DONT then
    match findCmd cmds option with
    | none => (cmds, [])
    | some c =>
      let send := c.remDo || !c.sentWill
      let reply := if send then [(WONT, option)] else []
      let c := if send then { c with sentWill := true } else c
      (update { c with remDo := false } cmds, reply)
  else (cmds, [])

/-- Two ends, each with its option table, and the negotiation commands on the way in each
direction (oldest first).  `aOpts`'s messages to the other end are in `toB`. -/
structure Net where
  aOpts : List Opt
  bOpts : List Opt
  toA : List (UInt8 × UInt8)
  toB : List (UInt8 × UInt8)
deriving DecidableEq, Repr

/-- Delivery of the oldest message to end A (`true`) or B (`false`); nothing happens if
there is none. -/
def Net.deliver (n : Net) (toA : Bool) (ans : Bool) : Net :=
  if toA then
    match n.toA with
    | [] => n
    | (v, o) :: rest =>
      let r := negotiate n.aOpts v o ans
      { n with aOpts := r.1, toA := rest, toB := n.toB ++ r.2 }
  else
    match n.toB with
    | [] => n
    | (v, o) :: rest =>
      let r := negotiate n.bOpts v o ans
      { n with bOpts := r.1, toB := rest, toA := n.toA ++ r.2 }

/-- Server table, lib/sergensio_telnet.c:790-802, with the handlers set at :945-954 when
RFC 2217 / window size support is on. -/
def serverCmds (com naws : Bool) : List Opt :=
  [⟨3, true, true, true, true, false, false, false⟩, ⟨1, true, false, true, true, false, false, false⟩,
   ⟨0, true, true, true, true, false, false, false⟩, ⟨44, false, false, false, false, false, false, com⟩,
   ⟨31, false, false, false, false, false, false, naws⟩]
/-- Initial sequence of the server, :804-817. -/
def serverInit (com naws : Bool) : List (UInt8 × UInt8) :=
  [(WILL, 3), (DO, 3), (WILL, 1), (DONT, 1), (DO, 0), (WILL, 0)] ++
    (if com then [(DO, 44)] else []) ++ (if naws then [(DO, 31)] else [])
/-- Client table, :819-831, as set up at :918-931. -/
def clientCmds (com naws : Bool) : List Opt :=
  [⟨3, true, false, false, false, false, false, false⟩, ⟨1, true, false, false, false, false, false, false⟩,
   ⟨0, true, true, false, false, false, false, false⟩, ⟨44, com, false, com, false, false, false, com⟩,
   ⟨31, naws, false, naws, false, false, false, naws⟩]
/-- Initial sequence of the client, :833-838. -/
def clientInit (com naws : Bool) : List (UInt8 × UInt8) :=
  (if com then [(WILL, 44)] else []) ++ (if naws then [(WILL, 31)] else [])

/-! ### The write side of the telnet filter -/

/-- `MAX_TELNET_CMD_XMIT_BUF`, lib/telnet.h:56. -/
abbrev maxXmit : Nat := 256

/-- `enum telnet_write_state`, lib/sergensio_telnet.c:57-66. -/
inductive WState where
  | notWriting
  | inTnWrite
  | inUserWrite
deriving DecidableEq, Repr

/-- The write fields of `struct telnet_filter`: the bytes queued in `out_telnet_cmd` (as a
queue; the circular buffer itself is modelled in Model/Buffer.lean and proved to be such a
queue), the unsent part `write_data[write_data_pos ..][0 .. write_data_len]` of the escaped
user data, and `write_state`. -/
structure Tx where
  cmdQ : List UInt8
  wdata : List UInt8
  st : WState
deriving DecidableEq, Repr

/-- State after `telnet_setup` (sergensio_telnet.c:494-523) queued the initial sequence. -/
def Tx.init (seq : List UInt8) (ext : Bool) : Tx :=
  { cmdQ := seq.take maxXmit, wdata := []
    st := if ext && !(seq.take maxXmit).isEmpty then .inTnWrite else .notWriting }

/-- `telnet_cmd_send`, lib/telnet.c:26-37: what does not fit is cut off (`td->error` is set,
which nothing reads). -/
def Tx.cmdSend (t : Tx) (cmd : List UInt8) : Tx :=
  { t with cmdQ := t.cmdQ ++ cmd.take (maxXmit - t.cmdQ.length) }

/-- Bytes with IAC doubled: the loop of `telnet_send_option`, lib/telnet.c:159-163. -/
def dbl : List UInt8 → List UInt8
  | [] => []
  | b :: bs => if b = IAC then b :: b :: dbl bs else b :: dbl bs

/-- `telnet_send_option`, lib/telnet.c:134-168: an option that does not fit is dropped. -/
def Tx.sendOption (t : Tx) (option : List UInt8) : Tx :=
  let w := [IAC, SB] ++ dbl option ++ [IAC, SE]
  if w.length > maxXmit - t.cmdQ.length then t else { t with cmdQ := t.cmdQ ++ w }

/-- The scatter loop of `telnet_ul_write`, sergensio_telnet.c:256-268: stops after the first
entry of which anything was taken.  Result: escaped data and the count `writelen`. -/
def takeSg (maxWrite : Nat) : List (List UInt8) → List UInt8 × Nat
  | [] => ([], 0)
  | d :: rest =>
    let q := xmit maxWrite d
    if q.2 ≠ 0 then q else takeSg maxWrite rest

/-- `telnet_ul_write`, sergensio_telnet.c:240-313, when the lower layer accepts
`accTn` bytes of queued commands and `accUser` bytes of user data without error.  Result:
new state, bytes given to the lower layer, bytes of user data reported accepted. -/
def Tx.ulWrite (t : Tx) (maxWrite : Nat) (sg : List (List UInt8)) (accTn accUser : Nat) :
    Tx × List UInt8 × Nat :=
  let a := if t.wdata.isEmpty then takeSg maxWrite sg else (t.wdata, 0)
  let t := { t with wdata := a.1 }
  let e1 := if t.st ≠ .inUserWrite ∧ t.cmdQ ≠ [] then t.cmdQ.take accTn else []
  let t := if t.st ≠ .inUserWrite ∧ t.cmdQ ≠ [] then
      { t with cmdQ := t.cmdQ.drop accTn
               st := if t.cmdQ.drop accTn ≠ [] then .inTnWrite else .notWriting }
    else t
  let e2 := if t.st ≠ .inTnWrite ∧ t.wdata ≠ [] then t.wdata.take accUser else []
  let t := if t.st ≠ .inTnWrite ∧ t.wdata ≠ [] then
      { t with wdata := t.wdata.drop accUser
               st := if accUser ≥ t.wdata.length then .notWriting else .inUserWrite }
    else t
  (t, e1 ++ e2, a.2)

end Gensio.Telnet
