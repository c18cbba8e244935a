import Verif.Model.Pparm

/-!
# The options of the serial device gensio
(`lib/sergensio_serialdev.c:24-46, 174-225, 1516-1593`)

Strings are lists of bytes without NUL.  Messages are left out, except that
`err` of the parameters is set by them.
-/

namespace Gensio.SerSpeed

/-- The settings of `struct sterm_data` (`sergensio_serialdev.c:142-157`). -/
structure Cfg where
  baud : Int := 9600
  parity : Nat := 1
  data : Nat := 8
  stop : Nat := 1
  xonxoff : Bool := false
  rtscts : Bool := false
  clocal : Bool := false
  hupcl : Bool := false
  dtr : Option Bool := none
  rts : Option Bool := none
  rtsFirst : Bool := false
deriving DecidableEq, Repr

/-- How a speed ended. -/
inductive R where
  | ok
  /-- Refused, with a message. -/
  | bad
  /-- Refused, without a message: not a speed. -/
  | no
deriving DecidableEq, Repr

/-- The letter of a parity (`sergensio_serialdev.c:181-186`), with the numbers
of `include/gensio/gensio.h:124-128`. -/
def parityOf (c : UInt8) : Option Nat :=
  if c = 78 ∨ c = 110 then some 1
  else if c = 69 ∨ c = 101 then some 3
  else if c = 79 ∨ c = 111 then some 2
  else if c = 77 ∨ c = 109 then some 4
  else if c = 83 ∨ c = 115 then some 5
  else none

/-- The stop bits and the end (`sergensio_serialdev.c:208-224`). -/
def stopBits (c : Cfg) : List UInt8 → Cfg × R
  | [] => (c, .ok)
  | x :: r =>
    if x = 49 then ({ c with stop := 1 }, if r.isEmpty then .ok else .bad)
    else if x = 50 then ({ c with stop := 2 }, if r.isEmpty then .ok else .bad)
    else (c, .bad)

/-- The data bits (`sergensio_serialdev.c:195-206`). -/
def dataBits (c : Cfg) : List UInt8 → Cfg × R
  | [] => (c, .ok)
  | x :: r =>
    if x = 53 then stopBits { c with data := 5 } r
    else if x = 54 then stopBits { c with data := 6 } r
    else if x = 55 then stopBits { c with data := 7 } r
    else if x = 56 then stopBits { c with data := 8 } r
    else (c, .bad)

/-- `set_serdef_from_speed` (`sergensio_serialdev.c:174-225`). -/
def setFrom (c : Cfg) (speed : Int) (others : List UInt8) : Cfg × R :=
  let c := { c with baud := speed }
  match others with
  | [] => (c, .ok)
  | x :: r =>
    match parityOf x with
    | none => (c, .bad)
    | some p => dataBits { c with parity := p } r

/-- `speedstr_to_speed` (`sergensio_serialdev.c:24-46`): `strtoul` put into an
`int`; the number and the rest. -/
def speedstr (s : List UInt8) : Option (Int × List UInt8) :=
  if (s.takeWhile CLib.isDigit).isEmpty then none
  else some (Pparm.toInt32 (CLib.strtoul10 s).1, s.dropWhile CLib.isDigit)

/-- `handle_speedstr` (`sergensio_serialdev.c:1516-1531`). -/
def handle (c : Cfg) (s : List UInt8) : Cfg × R :=
  match speedstr s with
  | none => (c, .no)
  | some (v, rest) => if v < 10 then (c, .no) else setFrom c v rest

/-- The bytes of a text. -/
def bs (s : String) : List UInt8 := s.toList.map fun c => UInt8.ofNat c.toNat

/-- The options that are on or off (`sergensio_serialdev.c:1545-1560`). -/
def bools : List (List UInt8 × (Cfg → Bool → Cfg)) :=
  [(bs "xonxoff", fun c b => { c with xonxoff := b }), (bs "rtscts", fun c b => { c with rtscts := b }),
   (bs "local", fun c b => { c with clocal := b }), (bs "hangup-when-done", fun c b => { c with hupcl := b }),
   (bs "dtr", fun c b => { c with dtr := some b }),
   (bs "rts", fun c b => { c with rtsFirst := if c.dtr = none then true else c.rtsFirst, rts := some b })]

/-- The options of old (`sergensio_serialdev.c:1562-1587`); `true` is a
comparison that does not look at the case. -/
def olds : List (List UInt8 × Bool × (Cfg → Cfg)) :=
  [(bs "1STOPBIT", true, fun c => { c with stop := 1 }), (bs "2STOPBITS", true, fun c => { c with stop := 2 }),
   (bs "5DATABITS", true, fun c => { c with data := 5 }), (bs "6DATABITS", true, fun c => { c with data := 6 }),
   (bs "7DATABITS", true, fun c => { c with data := 7 }), (bs "8DATABITS", true, fun c => { c with data := 8 }),
   (bs "NONE", false, fun c => { c with parity := 1 }), (bs "EVEN", false, fun c => { c with parity := 3 }),
   (bs "ODD", false, fun c => { c with parity := 2 }), (bs "MARK", false, fun c => { c with parity := 4 }),
   (bs "SPACE", false, fun c => { c with parity := 5 }), (bs "-XONXOFF", true, fun c => { c with xonxoff := false }),
   (bs "-RTSCTS", true, fun c => { c with rtscts := false }), (bs "-LOCAL", true, fun c => { c with clocal := false }),
   (bs "HANGUP_WHEN_DONE", true, fun c => { c with hupcl := true }),
   (bs "-HANGUP_WHEN_DONE", true, fun c => { c with hupcl := false })]

/-- The first option that is on or off and fits. -/
def tryBools (err : Bool) (parm : List UInt8) (c : Cfg) : List (List UInt8 × (Cfg → Bool → Cfg)) → Option Cfg
  | [] => none
  | (key, f) :: l =>
    let r := Pparm.bool err parm key
    match r.val with
    | some b => some (f c b)
    | none => tryBools r.err parm c l

/-- Two strings are the same, perhaps but for the case. -/
def same (nocase : Bool) (a b : List UInt8) : Bool :=
  if nocase then decide (a.map Pparm.toLower = b.map Pparm.toLower) else decide (a = b)

/-- The first option of old that fits. -/
def tryOlds (parm : List UInt8) (c : Cfg) : List (List UInt8 × Bool × (Cfg → Cfg)) → Option Cfg
  | [] => none
  | (key, nc, f) :: l => if same nc parm key then some (f c) else tryOlds parm c l

/-- `process_defserial_parm` (`sergensio_serialdev.c:1533-1593`): the settings
and if the option is accepted. -/
def process (err : Bool) (c : Cfg) (parm : List UInt8) : Cfg × Bool :=
  match Pparm.value err parm (bs "speed") with
  | some str =>
    let h := handle c str
    (h.1, decide (h.2 = .ok))
  | none =>
    let h := handle c parm
    if h.2 = .ok then (h.1, true)
    else
      match tryBools (err || decide (h.2 = .bad)) parm h.1 bools with
      | some c => (c, true)
      | none =>
        match tryOlds parm h.1 olds with
        | some c => (c, true)
        | none => (h.1, false)

end Gensio.SerSpeed
