/-!
# Datagram gensios, `lib/gensio_dgram.c`

An accepter (`struct udpna_data`) with the connections on its sockets (`struct udpn_data`).  A client gensio is an accepter that is
closed and freed from the start with one connection.  A step is what is done with the lock held; a callback into the user is made
without the lock: it is a thread in `ths`, and any other step may come before it goes on.

Simplifications:
* Addresses are numbers; two addresses are equal if `gensio_addr_equal` says so.  Callbacks are named by numbers, and are not NULL unless the model
  says so.  Allocation succeeds.  A read callback says how many bytes it took, or returns an error.
* The sockets are a number `nfd` (`nr_fds`).  A handler of a socket runs in one thread at a time.  `armed`, `wrOn`: whether the read and the write
  handlers are set.  A handler may run `late`, having been called before it was turned off.
* `udpna_startup`, :1571-:1594, is in `step`.  `disable` (used after a fork), the names of unix sockets and the answers to controls are left out here.
* `log`, `extra` and `lost` are not in the code: what the user asked for and was told; how many of the counts in `read_disable_count` come
  from `udpna_readhandler` (:1376-:1377); how many references belong to no one.
-/
namespace Gensio.Dgram

/-- `enum udpn_state`, :87-:92. -/
inductive St | closed | inOpen | opened | inClose
deriving Repr, DecidableEq

/-- `struct udpn_data`, :94-:132.  `gone`: the memory was freed. -/
structure C where
  addr : Nat
  client : Bool
  st : St
  rd : Bool
  wr : Bool
  inRead : Bool
  defRead : Bool
  inWrite : Bool
  wrPend : Bool
  inOpenCb : Bool
  inCloseCb : Bool
  freed : Bool
  dop : Bool
  openDone : Option Nat
  closeDone : Option Nat
  gone : Bool
deriving Repr, DecidableEq

/-- Who called `udpn_finish_close`: the read handler, `udpn_deferred_op` or the write handler. -/
inductive Ctx | rh | dop | wr
deriving Repr, DecidableEq

/-- Threads in callbacks of the user.  `new`: a new connection, :1441.  `newEn`: `enable_done`, :1451.  `read`: :685, in the read handler or
in `udpna_deferred_op`.  `openCb`: :764.  `closeCb`: :612.  `shutRh`, `shutDop`: `shutdown_done`, :1476 and :741.  `wr`: :992.  `en`:
:1632. -/
inductive T
  | new (i : Nat) | newEn (i : Nat) | read (i : Nat) (rh : Bool) | openCb (i : Nat) | closeCb (i : Nat) (ctx : Ctx) | shutRh (i : Nat) | shutDop
  | wr (i : Nat) | en
deriving Repr, DecidableEq

/-- What the user asked for, when it was accepted, and what it was told. -/
inductive Ev
  | new (i a : Nat) | read (i a : Nat) | opn (i id : Nat) | opened (i id : Nat) | close (i id : Nat) | closed (i id : Nat) | free (i : Nat)
  | shut (id : Nat) | shutCb (id : Nat) | en (id : Nat) | enCb (id : Nat)
deriving Repr, DecidableEq

/-- `struct udpna_data`, :150-:223.  `cs`: all connections that ever were.  `udpns`: the list of open ones; the others that are not gone are
in `closed_udpns`.  `cur`: the sender of the datagram in `read_data`.  `enRun`: `enable_done_runner` is to run.  `clearing`: the sockets whose
`udpna_fd_cleared` is to come. -/
structure U where
  cs : List C
  udpns : List Nat
  cnt : Nat
  ref : Nat
  rhDis : Bool
  pend : Nat
  cur : Nat
  owner : Option Nat
  dop : Bool
  inNew : Bool
  enRun : Bool
  enDone : Option Nat
  enabled : Bool
  closed : Bool
  inShut : Bool
  freed : Bool
  finished : Bool
  shutDone : Option Nat
  rdCnt : Nat
  rdDis : Bool
  armed : Bool
  wrCnt : Nat
  wrOn : Bool
  nfd : Nat
  clearing : Nat
  gone : Bool
  ths : List T
  log : List Ev
  extra : Nat
  lost : Nat
deriving Repr, DecidableEq

/-- What does not change.  `nfd` is how many sockets a start opens. -/
structure Cfg where
  nfd : Nat
  nocon : Bool
deriving Repr, DecidableEq

/-- A connection made by `udp_alloc_gensio`, :1320-:1365. -/
def C.new (addr : Nat) : C :=
  { addr, client := false, st := .closed, rd := false, wr := false, inRead := false, defRead := false, inWrite := false, wrPend := false, inOpenCb := false, inCloseCb := false, freed := false, dop := false, openDone := none, closeDone := none, gone := false }

/-- `i_dgram_gensio_accepter_alloc`, :1844-:1920. -/
def initAcc : U :=
  { cs := [], udpns := [], cnt := 0, ref := 1, rhDis := false, pend := 0, cur := 0, owner := none, dop := false, inNew := false, enRun := false, enDone := none, enabled := false, closed := false, inShut := false, freed := false, finished := false, shutDone := none, rdCnt := 0, rdDis := false, armed := false, wrCnt := 0, wrOn := false, nfd := 0, clearing := 0, gone := false, ths := [], log := [], extra := 0, lost := 0 }

/-- `dgram_gensio_alloc`, :2257-:2298: a client for the address `a`. -/
def initClient (a : Nat) : U := { initAcc with cs := [{ C.new a with client := true }], cnt := 1, nfd := 1, closed := true, freed := true }

/-- A connection whose memory is there. -/
def U.get (s : U) (i : Nat) : Option C := s.cs[i]?.bind fun c => if c.gone then none else some c

/-- A connection is changed. -/
def U.put (s : U) (i : Nat) (c : C) : U := { s with cs := s.cs.set i c }

/-- A line of the log. -/
def U.say (s : U) (e : Ev) : U := { s with log := s.log ++ [e] }

/-- A thread goes into a callback. -/
def U.call (s : U) (t : T) : U := { s with ths := t :: s.ths }

/-- `udpna_ref`, :239-:243. -/
def ref (s : U) : Option U := if s.ref = 0 then none else some { s with ref := s.ref + 1 }

/-- `udpna_deref_and_unlock`, :257-:267. -/
def deref (s : U) : Option U :=
  if s.ref = 0 then none else if s.ref = 1 then some { s with ref := 0, gone := true } else some { s with ref := s.ref - 1 }

/-- `udpna_start_deferred_op`, :346-:353. -/
def startDop (s : U) : Option U := if s.dop then some s else (ref s).map fun s => { s with dop := true }

/-- `udpna_check_read_state`, :401-:407, with `udpna_enable_read` and `udpna_disable_read`, :381-:399. -/
def checkRead (s : U) : U :=
  if s.rdDis ∧ s.rdCnt = 0 then { s with rdDis := false, armed := true }
  else if !s.rdDis ∧ s.rdCnt > 0 then { s with rdDis := true, armed := false }
  else s

/-- `udpna_fd_read_enable`, :409-:417. -/
def fdReadEnable (s : U) : Option U := if s.rdCnt = 0 then none else some (checkRead { s with rdCnt := s.rdCnt - 1 })

/-- `udpna_fd_read_disable`, :419-:426. -/
def fdReadDisable (s : U) : U := checkRead { s with rdCnt := s.rdCnt + 1 }

/-- `udpna_fd_write_disable`, :437-:444; `in_write` of the accepter is never set. -/
def fdWriteDisable (s : U) : Option U :=
  if s.wrCnt = 0 then none else some { s with wrCnt := s.wrCnt - 1, wrOn := if s.wrCnt = 1 then false else s.wrOn }

/-- `udpna_fd_write_enable`, :455-:461. -/
def fdWriteEnable (s : U) : U := { s with wrCnt := s.wrCnt + 1, wrOn := if s.wrCnt = 0 then true else s.wrOn }

/-- `udpna_check_finish_free`, :509-:534. -/
def checkFinish (s : U) : Option U :=
  if !s.closed ∨ s.inNew ∨ s.cnt ≠ 0 ∨ s.inShut ∨ !s.freed ∨ s.finished then some s
  else if s.ref ≤ 1 then none
  else some { s with finished := true, ref := s.ref - 1 + s.nfd, clearing := s.nfd }

/-- `udpn_finish_free`, :548-:558.  A connection that is in the other list is a failed assertion in `gensio_list_rm`; one whose
runner is to run leaves a runner that uses freed memory. -/
def finishFree (s : U) (i : Nat) : Option U :=
  (s.get i).bind fun c =>
    if i ∈ s.udpns ∨ s.cnt = 0 ∨ c.dop then none else checkFinish { (s.put i { c with gone := true }) with cnt := s.cnt - 1 }

/-- The end of the read handler, :1480-:1487. -/
def outEnable (s : U) : Option U :=
  if s.rhDis then (fdReadEnable { s with rhDis := false, extra := s.extra - 1 }).bind deref else deref s

/-- The end of the write handler, :1033-:1036. -/
def afterWr (s : U) : Option U := deref (if s.wrCnt > 0 then { s with wrOn := true } else s)

/-- What comes after `udpn_finish_close`. -/
def fin (ctx : Ctx) (s : U) : Option U :=
  match ctx with
  | .rh => outEnable s
  | .dop => deref s
  | .wr => afterWr s

/-- `udpn_finish_close`, :615-:621. -/
def finishClose2 (s : U) (i : Nat) : Option U :=
  (s.get i).bind fun c =>
    let s := if s.owner = some i then { s with owner := none, pend := 0 } else s
    if c.freed ∧ !c.dop then finishFree s i else some s

/-- `udpn_finish_close`, :594-:622, and what comes after it. -/
def finishClose (s : U) (i : Nat) (ctx : Ctx) : Option U :=
  (s.get i).bind fun c =>
    if c.inRead ∨ c.inWrite ∨ c.inOpenCb then fin ctx s
    else match c.closeDone with
      | some id => some (((s.put i { c with st := .closed, closeDone := none, inCloseCb := true }).say (.closed i id)).call (.closeCb i ctx))
      | none => (finishClose2 (s.put i { c with st := .closed }) i).bind (fin ctx)

/-- The read handler after a read, :1465-:1478.  `shutdown_done` is called if it is not NULL. -/
def afterRead (s : U) (i : Nat) : Option U :=
  (s.get i).bind fun c =>
    if c.st = .inClose then finishClose s i .rh
    else if s.inShut then
      match s.shutDone with
      | some id => some ((({ s with inShut := false }.put i { c with inRead := true }).say (.shutCb id)).call (.shutRh i))
      | none => (checkFinish ({ s with inShut := false }.put i { c with inRead := false })).bind outEnable
    else (checkFinish s).bind outEnable

/-- `udpn_finish_read` is begun, :639-:686. -/
def callRead (s : U) (i : Nat) (rh : Bool) : U := (s.say (.read i s.cur)).call (.read i rh)

/-- `got_ndata`, :1457-:1464. -/
def gotNdata (s : U) (i : Nat) : Option U :=
  (s.get i).bind fun c => if c.rd ∧ !c.inRead then some (callRead (s.put i { c with inRead := true }) i true) else afterRead s i

/-- The end of `udpna_deferred_op`, :746-:749. -/
def dopEnd (s : U) : Option U := deref (if !s.freed ∨ !s.closed then checkRead s else s)

/-- `udpna_deferred_op`, :734-:749. -/
def dopRest (s : U) : Option U :=
  if s.inShut ∧ !s.inNew then
    match s.shutDone with
    | some id => some (({ s with inShut := false }.say (.shutCb id)).call .shutDop)
    | none => (checkFinish { s with inShut := false }).bind dopEnd
  else dopEnd s

/-- After a read callback, :687-:712, which returned an error or has taken `count` bytes. -/
def readCont (s : U) (i : Nat) (rh err : Bool) (count : Nat) : Option U :=
  (s.get i).bind fun c =>
    let out (s : U) : Option U :=
      let s := checkRead (s.put i { c with inRead := false })
      if rh then afterRead s i else dopRest s
    if err then out s
    else if c.st = .inClose then out s
    else if count < s.pend then
      let s := { s with pend := s.pend - count }
      if c.st = .opened ∧ c.rd then some (callRead s i rh) else out s
    else out { s with owner := none, pend := 0 }

/-- The read handler after the callback for a new connection and after each `enable_done`, :1444-:1464. -/
def newCont (s : U) (i : Nat) : Option U :=
  match s.enDone with
  | some id => some (({ s with enDone := none }.say (.enCb id)).call (.newEn i))
  | none =>
    (s.get i).bind fun c =>
      let s := { s with inNew := false }
      if c.st = .opened then gotNdata s i else afterRead { s with pend := 0 } i

/-- `udpna_readhandler`, :1367-:1439, for a datagram of `len` bytes from the address `a`. -/
def rx (g : Cfg) (s : U) (a len : Nat) : Option U :=
  (ref s).bind fun s =>
    if s.pend ≠ 0 then deref (fdReadDisable { s with rhDis := true, extra := s.extra + 1 })
    else if len = 0 then deref s
    else
      let s := { s with pend := len, cur := a }
      let found := if g.nocon then s.udpns.head? else s.udpns.find? fun i => (s.cs[i]?.map (·.addr)) = some a
      match found with
      | some i => gotNdata { s with owner := some i } i
      | none =>
        if s.closed ∨ !s.enabled then outEnable { s with pend := 0 }
        else
          let i := s.cs.length
          some (({ s with cs := s.cs ++ [{ C.new a with st := .opened, inRead := true }], udpns := s.udpns ++ [i], cnt := s.cnt + 1, rdCnt := s.rdCnt + 1, owner := some i, inNew := true }.say (.new i a)).call (.new i))

/-- `udpna_writehandler`, :1009-:1037, with `udpn_handle_write_incoming`, :978-:991. -/
def tx (s : U) : Option U :=
  (ref s).bind fun s =>
    match s.udpns.find? fun i => (s.cs[i]?.map (·.wr)) = some true with
    | none => afterWr s
    | some i =>
      (s.get i).bind fun c => if c.inWrite then afterWr (s.put i { c with wrPend := true }) else some ((s.put i { c with inWrite := true }).call (.wr i))

/-- After a write callback, :993-:1006. -/
def wrCont (s : U) (i : Nat) (err : Bool) : Option U :=
  (s.get i).bind fun c =>
    if !err ∧ c.wrPend ∧ c.wr then some ((s.put i { c with wrPend := false }).call (.wr i))
    else
      let c' := { c with wrPend := if err then c.wrPend else false, inWrite := false }
      if c.st = .inClose then finishClose (s.put i c') i .wr else afterWr (s.put i c')

/-- `udpn_deferred_op`, :768-:778. -/
def cdopRest (s : U) (i : Nat) : Option U :=
  (s.get i).bind fun c =>
    if c.st = .inClose then finishClose s i .dop
    else if c.freed ∧ !c.inCloseCb ∧ !s.dop then (finishFree s i).bind deref
    else deref s

/-- `udpn_deferred_op`, :752-:767. -/
def cdop (s : U) (i : Nat) : Option U :=
  (s.get i).bind fun c =>
    let c := { c with dop := false }
    if c.st = .inOpen then
      match c.openDone with
      | some id => some (((s.put i { c with st := .opened, inOpenCb := true }).say (.opened i id)).call (.openCb i))
      | none => cdopRest (checkRead (s.put i { c with st := .opened })) i
    else cdopRest (s.put i c) i

/-- `udpna_deferred_op`, :715-:733. -/
def adop (s : U) : Option U :=
  let s := { s with dop := false }
  match s.owner with
  | none => dopRest s
  | some i =>
    (s.get i).bind fun c =>
      if c.defRead then
        if c.rd then some (callRead (s.put i { c with defRead := false }) i false)
        else dopRest (s.put i { c with defRead := false, inRead := false })
      else dopRest s

/-- `udpn_start_deferred_op`, :781-:788. -/
def startCdop (s : U) (i : Nat) : Option U :=
  (s.get i).bind fun c => if c.dop then some s else (ref s).map fun s => s.put i { c with dop := true }

/-- `udpn_open`, :790-:813. -/
def opn (s : U) (i : Nat) (done : Option Nat) : Option U :=
  (s.get i).bind fun c =>
    if !c.client ∨ c.st ≠ .closed then some s
    else
      let s := fdReadDisable { s with udpns := s.udpns ++ [i] }
      let s := s.put i { c with st := .inOpen, openDone := done }
      startCdop (match done with | some id => s.say (.opn i id) | none => s) i

/-- `udpn_start_close`, :815-:852.  A connection that is not in the list `udpns` is a failed assertion. -/
def startClose (s : U) (i : Nat) (done : Option Nat) : Option U :=
  (s.get i).bind fun c =>
    let mine := s.owner = some i
    let c' := { c with inRead := if mine ∧ c.defRead then false else c.inRead, defRead := if mine then false else c.defRead, closeDone := done, rd := false, wr := false, st := .inClose }
    let s := if mine then { s with owner := none, pend := 0 } else s
    (if c.rd then some s else fdReadEnable s).bind fun s =>
      (if c.wr then fdWriteDisable s else some s).bind fun s =>
        if i ∉ s.udpns then none else startCdop ({ s with udpns := s.udpns.erase i }.put i c') i

/-- `udpn_close`, :860-:875. -/
def close (s : U) (i : Nat) (done : Option Nat) : Option U :=
  (s.get i).bind fun c =>
    if c.st = .closed ∨ c.st = .inClose then some s
    else startClose (match done with | some id => s.say (.close i id) | none => s) i done

/-- `udpn_free`, :877-:892. -/
def free (s : U) (i : Nat) : Option U :=
  (ref s).bind fun s =>
    (s.get i).bind fun c =>
      let c := { c with freed := true }
      let s := (s.put i c).say (.free i)
      (if c.st = .inClose then some (s.put i { c with closeDone := none })
       else if c.st ≠ .closed then startClose s i none
       else if !c.inCloseCb ∧ !c.dop then finishFree s i
       else some s).bind deref

/-- `udpn_set_read_callback_enable`, :894-:931. -/
def setRead (s : U) (i : Nat) (b : Bool) : Option U :=
  (s.get i).bind fun c =>
    if c.st = .closed ∨ c.st = .inClose ∨ c.rd = b then some s
    else if b ∧ s.rdCnt = 0 then none
    else
      let s := { s with rdCnt := if b then s.rdCnt - 1 else s.rdCnt + 1 }
      let c := { c with rd := b }
      let mine := s.pend ≠ 0 ∧ s.owner = some i
      if c.inRead ∨ c.st = .inOpen ∨ (mine ∧ !b) then some (s.put i c)
      else if b ∧ mine then startDop (s.put i { c with inRead := true, defRead := true })
      else some (checkRead (s.put i c))

/-- `udpn_set_write_callback_enable`, :933-:953. -/
def setWrite (s : U) (i : Nat) (b : Bool) : Option U :=
  (s.get i).bind fun c =>
    if c.st = .closed ∨ c.st = .inClose ∨ c.wr = b then some s
    else
      let s := s.put i { c with wr := b }
      if c.st = .inOpen then some s else if b then some (fdWriteEnable s) else fdWriteDisable s

/-- `udpna_shutdown`, :1596-:1618. -/
def shutdown (s : U) (done : Option Nat) : Option U :=
  if !s.inShut ∧ !s.closed then
    let s := { s with enabled := false, inShut := true, closed := true, shutDone := done }
    let s := match done with | some id => s.say (.shut id) | none => s
    if s.inNew then some s else startDop s
  else some s

/-- `udpna_set_accept_callback_enable`, :1638-:1660.  `run` of a runner that is to run already does nothing. -/
def setEnable (s : U) (b : Bool) (done : Option Nat) : Option U :=
  if s.enDone.isSome then some s
  else
    let s := { s with enabled := b, enDone := done }
    let s := match done with | some id => s.say (.en id) | none => s
    if s.inNew then some s
    else (ref s).map fun s => if s.enRun then { s with lost := s.lost + 1 } else { s with enRun := true }

/-- `udpna_enable_op`, :1620-:1636. -/
def enOp (s : U) : Option U :=
  let s := { s with enRun := false }
  match s.enDone with
  | some id => some (({ s with enDone := none }.say (.enCb id)).call .en)
  | none => deref s

/-- `udpna_free`, :1662-:1691. -/
def accFree (s : U) : Option U :=
  if s.freed then none
  else (ref s).bind fun s => (checkFinish { s with enabled := false, closed := true, freed := true }).bind deref

/-- `udpna_str_to_gensio`, :1728-:1762, for the address `a`. -/
def strTo (s : U) (a : Nat) : Option U :=
  if s.nfd = 0 ∨ (s.cs.any fun c => !c.gone && c.addr = a) then some s
  else startCdop { s with cs := s.cs ++ [{ C.new a with client := true }], cnt := s.cnt + 1 } s.cs.length

/-- After a callback; `err` and `count` are the answers of the user. -/
def cont (s : U) (t : T) (err : Bool) (count : Nat) : Option U :=
  match t with
  | .new i => (s.get i).bind fun c => newCont (s.put i { c with inRead := false }) i
  | .newEn i => newCont s i
  | .read i rh => readCont s i rh err count
  | .openCb i => (s.get i).bind fun c => cdopRest (checkRead (s.put i { c with inOpenCb := false })) i
  | .closeCb i ctx => (s.get i).bind fun c => (finishClose2 (s.put i { c with inCloseCb := false }) i).bind (fin ctx)
  | .shutRh i => (s.get i).bind fun c => (checkFinish (s.put i { c with inRead := false })).bind outEnable
  | .shutDop => (checkFinish s).bind dopEnd
  | .wr i => wrCont s i err
  | .en => deref s

/-- The steps. -/
inductive Op
  /-- A socket has a datagram. -/
  | rx (late : Bool) (a len : Nat)
  /-- A socket can be written. -/
  | tx (late : Bool)
  /-- A runner runs: of a connection, of the accepter, for an enable. -/
  | cdop (i : Nat) | adop | enOp
  /-- `udpna_fd_cleared`, :500-:507. -/
  | cleared
  /-- A callback returns. -/
  | cont (k : Nat) (err : Bool) (count : Nat)
  /-- Calls of the user. -/
  | opn (i : Nat) (done : Option Nat) | close (i : Nat) (done : Option Nat) | free (i : Nat) | setRead (i : Nat) (b : Bool) | setWrite (i : Nat) (b : Bool)
  | startup | shutdown (done : Option Nat) | setEnable (b : Bool) (done : Option Nat) | accFree | strTo (a : Nat)
deriving Repr, DecidableEq

/-- Whether a thread is in a read handler. -/
def T.isRh : T → Bool
  | .new _ | .newEn _ | .read _ true | .closeCb _ .rh | .shutRh _ => true
  | _ => false

/-- Whether a thread is in a write handler. -/
def T.isWr : T → Bool
  | .wr _ | .closeCb _ .wr => true
  | _ => false

/-- When a step may come.  The user uses a connection that it knows and has not freed; the accepter, unless it has freed it. -/
def can (s : U) : Op → Bool
  | .rx late _ _ => !s.gone && (s.armed || late) && s.ths.countP T.isRh < s.nfd && (!s.finished || s.clearing ≠ 0)
  | .tx late => !s.gone && (s.wrOn || late) && s.ths.countP T.isWr < s.nfd && (!s.finished || s.clearing ≠ 0)
  | .cdop i => s.cs[i]?.any fun c => c.dop
  | .adop => s.dop
  | .enOp => s.enRun
  | .cleared => s.clearing ≠ 0
  | .cont k _ _ => k < s.ths.length
  | .opn i _ | .close i _ | .free i | .setRead i _ | .setWrite i _ => s.cs[i]?.any fun c => !c.freed
  | .startup | .shutdown _ | .setEnable _ _ | .accFree | .strTo _ => !s.freed

/-- A step; `none` is a failed assertion or a use of freed memory. -/
def step (g : Cfg) (s : U) (op : Op) : Option U :=
  if s.gone then none
  else match op with
  | .rx _ a len => rx g s a len
  | .tx _ => tx s
  | .cdop i => cdop s i
  | .adop => adop s
  | .enOp => enOp s
  | .cleared => deref { s with clearing := s.clearing - 1 }
  | .cont k err count => (s.ths[k]?).bind fun t => cont { s with ths := s.ths.eraseIdx k } t err count
  | .opn i done => opn s i done
  | .close i done => close s i done
  | .free i => free s i
  | .setRead i b => setRead s i b
  | .setWrite i b => setWrite s i b
  | .startup => some { s with enabled := true, rdDis := false, armed := true, nfd := if s.nfd = 0 then g.nfd else s.nfd }
  | .shutdown done => shutdown s done
  | .setEnable b done => setEnable s b done
  | .accFree => accFree s
  | .strTo a => strTo s a

/-- The result of a list of steps: a fault, a step that may not come, or the state after it. -/
inductive Res | fault | cannot | ok (s : U)
deriving Repr, DecidableEq

/-- One step after the other. -/
def exec (g : Cfg) : U → List Op → Res
  | s, [] => .ok s
  | s, op :: ops => if can s op then (match step g s op with | some s' => exec g s' ops | none => .fault) else .cannot

/-- The states after some steps allowed by `P`. -/
inductive Reach (g : Cfg) (P : U → Op → Prop) : U → Prop
  | acc : Reach g P initAcc
  | client (a : Nat) : Reach g P (initClient a)
  | step {s s' : U} (op : Op) : Reach g P s → can s op = true → P s op → step g s op = some s' → Reach g P s'

end Gensio.Dgram
