/-!
# Model of lib/gensio_chardelay.c

Writes are atomic (see `Verif/Model/Ratelimit.lean`).  The read direction passes data straight
through (:261-269).  Times are `Nat` nanoseconds of the monotonic clock; a relative delay is an
`Int` (it can be negative when the maximum end time has passed).  The handler of
lib/gensio_base.c:623-639 always stores the count, 0 on an error, so `sent` is 0 then.
-/
namespace Gensio.Chardelay

/-- `struct chardelay_config`, :18-27.  `sendon` are the send-on strings. -/
structure Cfg where
  len : Nat
  minDelay : Nat
  maxDelay : Nat
  sendon : List (List UInt8)
deriving Repr

/-- `struct chardelay_filter`, :29-50.  `wb` is `writebuf[0 .. writebuf_pos]`. -/
structure St where
  wb : List UInt8 := []
  ready : Bool := false
  firstIn : Bool := false
  inClose : Bool := false
  maxEnd : Nat := 0
  spos : List Nat
deriving DecidableEq, Repr

/-- The filter as allocated. -/
def St.alloc (c : Cfg) : St := { spos := List.replicate c.sendon.length 0 }

/-- `chardelay_filter_start_timer`, :67-104: new state and relative delay. -/
def startTimer (c : Cfg) (s : St) (now : Nat) : St × Int :=
  let s := if !s.firstIn then { s with maxEnd := now + c.maxDelay, firstIn := true } else s
  let e := now + c.minDelay
  let e := if s.maxEnd < e then s.maxEnd else e
  (s, (e : Int) - (now : Int))

/-- One string and one character, :201-213: new position, and whether the string matched.  Reading past
the string is `none`. -/
def scan1 (str : List UInt8) (pos : Nat) (b : UInt8) : Option (Nat × Bool) :=
  match str[pos]? with
  | none => none
  | some ch =>
    if ch = b then
      if pos + 1 ≥ str.length then some (0, true) else some (pos + 1, false)
    else some (0, false)

/-- The loop over the strings, :200-214. -/
def scanAll : List (List UInt8) → List Nat → UInt8 → Option (List Nat × Bool)
  | [], _, _ => some ([], false)
  | _ :: _, [], _ => none
  | s :: ss, p :: ps, b => do
    let (p, m) ← scan1 s p b
    let (ps, m') ← scanAll ss ps b
    some (p :: ps, m || m')

/-- The loop over the characters, :199-215, for `j`, `j+1`, … (`n` of them).  With no strings nothing is
read; reading past the caller's buffer is `none`. -/
def scanLoop (c : Cfg) (buf : List UInt8) (j : Nat) (s : St) : Nat → Option St
  | 0 => some s
  | n + 1 =>
    if c.sendon = [] then scanLoop c buf (j + 1) s n
    else
      match buf[j]? with
      | none => none
      | some b => do
        let (ps, m) ← scanAll c.sendon s.spos b
        scanLoop c buf (j + 1) { s with spos := ps, ready := s.ready || m } n

/-- The copy loop, :182-220: state and `count`.  The scan goes to `left`, not to `len` (:199). -/
def copyIn (c : Cfg) (s : St) (count : Nat) : List (List UInt8) → Option (St × Nat)
  | [] => some (s, count)
  | buf :: sg =>
    if s.wb.length < c.len then do
      let left := c.len - s.wb.length
      let len := if buf.length > left then left else buf.length
      let s ← scanLoop c buf 0 s left
      copyIn c { s with wb := s.wb ++ buf.take len } (count + len) sg
    else some (s, count)

/-- What a write does to the outside: count reported (`none` is an error), what was offered to the lower
layer, what it took, and the timer left running (relative delay). -/
structure Out where
  count : Option Nat
  offered : Option (List UInt8) := none
  took : List UInt8 := []
  timer : Option Int := none
deriving DecidableEq, Repr

/-- The sending part, :222-246: state, error, offered, taken. -/
def sendOut (c : Cfg) (s : St) (sink : Option Nat) : St × Bool × Option (List UInt8) × List UInt8 :=
  if s.ready || s.wb.length ≥ c.len then
    let sent := sink.getD 0
    let s' := if sent > 0 && !s.inClose then { s with ready := false } else s
    let s' := if sent ≥ s.wb.length then { s' with wb := [], firstIn := false } else { s' with wb := s.wb.drop sent }
    (s', sink.isNone, some s.wb, s.wb.take sent)
  else (s, false, none, [])

/-- `chardelay_ul_write`, :170-259. -/
def ulWrite (c : Cfg) (s : St) (sg : List (List UInt8)) (sink : Option Nat) (now : Nat) : Option (St × Out) := do
  let (s, count) ← copyIn c s 0 sg
  let r := sendOut c s sink
  if !r.2.1 && r.1.wb.length > 0 && !r.1.inClose then
    let t := startTimer c r.1 now
    some (t.1, { count := some count, offered := r.2.2.1, took := r.2.2.2, timer := some t.2 })
  else some (r.1, { count := if r.2.1 then none else some count, offered := r.2.2.1, took := r.2.2.2 })

/-- `chardelay_filter_timeout`, :303-312. -/
def timeout (s : St) : St := { s with ready := true }

/-- `chardelay_ll_write_pending`, :120-124. -/
def pending (s : St) : Bool := s.ready && s.wb.length > 0

/-- `chardelay_try_disconnect`, :152-168: done?, state. -/
def tryDisconnect (s : St) : Bool × St :=
  if s.wb.length = 0 then (true, { s with ready := false }) else (false, { s with ready := true, inClose := true })

end Gensio.Chardelay
