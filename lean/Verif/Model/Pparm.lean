import Verif.Model.CLib

/-!
# Values of parameters, `lib/gensio.c`

The functions that read `key=value` parameters (`gensio_pparm_...`, :1909-2265, :2410-2416), times (`gensio_str_to_time`,
:3760-3805) and default values (`l_gensio_set_default`, :2855-2993).

Strings are lists of bytes without NUL.  `long` has 64 bits, `int` has 32 bits.  Messages to the user are left out, but that one
was given is kept in `err` as in the code.
-/
namespace Gensio.Pparm
open CLib

/-- `ULONG_MAX`, `LONG_MAX`, `UINT_MAX`, `INT_MAX`. -/
def ulongMax : Nat := 18446744073709551615
@[inherit_doc ulongMax] def longMax : Nat := 9223372036854775807
@[inherit_doc ulongMax] def uintMax : Nat := 4294967295
@[inherit_doc ulongMax] def intMax : Nat := 2147483647

/-- `tolower`. -/
def toLower (c : UInt8) : UInt8 := if isUpper c then c + 32 else c

/-- The value of a digit in the bases up to 36. -/
def digitVal (c : UInt8) : Nat :=
  if isDigit c then c.toNat - 48 else if isLower c then c.toNat - 87 else if isUpper c then c.toNat - 55 else 255

/-- A digit in the base. -/
def isDig (b : Nat) (c : UInt8) : Bool := digitVal c < b

/-- The value of digits, the most significant first. -/
def numVal (b : Nat) (l : List UInt8) : Nat := l.foldl (fun a c => a * b + digitVal c) 0

/-- Base and text after the prefix, for `strtoul` and friends with base 0 or 8. -/
def basePrefix (base : Nat) (s : List UInt8) : Nat × List UInt8 :=
  if base ≠ 0 then (base, s)
  else
    match s with
    | 48 :: x :: d :: r => if (x = 120 || x = 88) && isDig 16 d then (16, d :: r) else (8, s)
    | 48 :: _ => (8, s)
    | _ => (10, s)

/-- What `strtoul` and friends read: sign, magnitude and the rest of the text; `none` when there is no number. -/
def scanNum (base : Nat) (s : List UInt8) : Option (Bool × Nat × List UInt8) :=
  let g := sign s
  let p := basePrefix base g.2
  let ds := p.2.takeWhile (isDig p.1)
  if ds.isEmpty then none else some (g.1, numVal p.1 ds, p.2.dropWhile (isDig p.1))

/-- `strtoul(s, &end, base)`: value and the rest at `end`.  `errno` is not looked at by the code. -/
def strtoul (base : Nat) (s : List UInt8) : Nat × List UInt8 :=
  match scanNum base s with
  | none => (0, s)
  | some (neg, m, r) => (if m > ulongMax then ulongMax else if neg then (ulongMax + 1 - m) % (ulongMax + 1) else m, r)

/-- The value of `strtol` and `strtoll`: a number that does not fit becomes the nearest one that does. -/
def sat (neg : Bool) (m : Nat) : Int :=
  if neg then (if m > longMax + 1 then -(longMax + 1 : Nat) else -m) else (if m > longMax then longMax else m)

/-- `strtol(s, &end, base)`, `strtoll`. -/
def strtol (base : Nat) (s : List UInt8) : Int × List UInt8 :=
  match scanNum base s with
  | none => (0, s)
  | some (neg, m, r) => (sat neg m, r)

/-- Result of the functions: what they return, what they stored, and `p->err`. -/
structure Res (α : Type) where
  rv : Int
  val : Option α
  err : Bool
  deriving DecidableEq, Repr

/-- The parameter does not have this key: 0 is returned. -/
def Res.no {α : Type} (err : Bool) : Res α := ⟨0, none, err⟩
/-- A message was given and -1 is returned. -/
def Res.bad {α : Type} : Res α := ⟨-1, none, true⟩
/-- The value was stored and 1 is returned. -/
def Res.ok {α : Type} (v : α) (err : Bool) : Res α := ⟨1, some v, err⟩

/-- `gensio_pparm_value`, :1909-1925: the value. -/
def value (err : Bool) (str key : List UInt8) : Option (List UInt8) :=
  if err then none
  else if (str.take key.length).map toLower ≠ key.map toLower then none
  else
    match str.drop key.length with
    | 61 :: v => some v
    | _ => none

/-- `gensio_pparm_ds`, :1927-1952. -/
def ds (err : Bool) (str key : List UInt8) : Res Nat :=
  match value err str key with
  | none => .no err
  | some v =>
    if v.isEmpty then .bad
    else
      let r := strtoul 0 v
      if r.2.isEmpty then .ok r.1 err else .bad

/-- `gensio_pparm_uint`, :1954-1985. -/
def uint (err : Bool) (str key : List UInt8) : Res Nat :=
  match value err str key with
  | none => .no err
  | some v =>
    if v.isEmpty then .bad
    else
      let r := strtoul 0 v
      if !r.2.isEmpty then .bad
      else if r.1 > uintMax then .bad
      else .ok r.1 err

/-- Conversion of a `long` to `int`. -/
def toInt32 (z : Int) : Int := (z + (intMax + 1 : Nat)) % (uintMax + 1 : Nat) - (intMax + 1 : Nat)

/-- `gensio_pparm_int`, :1987-2017. -/
def int (err : Bool) (str key : List UInt8) : Res Int :=
  match value err str key with
  | none => .no err
  | some v =>
    if v.isEmpty then .bad
    else
      let r := strtol 0 v
      if !r.2.isEmpty then .bad
      else .ok (toInt32 r.1) (err || r.1 > intMax || r.1 < -(intMax + 1 : Nat))

/-- `gensio_pparm_bool`, :2019-2055. -/
def bool (err : Bool) (st key : List UInt8) : Res Bool :=
  if err then .no err
  else if st.map toLower = key.map toLower then .ok true err
  else
    match value err st key with
    | none => .no err
    | some v =>
      if v.isEmpty then .bad
      else if v = [116, 114, 117, 101] || v = [49] || v = [121, 101, 115] || v = [111, 110] then .ok true err
      else if v = [102, 97, 108, 115, 101] || v = [48] || v = [110, 111] || v = [111, 102, 102] then .ok false err
      else .bad

/-- `gensio_pparm_boolv`, :2057-2083. -/
def boolv (err : Bool) (st key tv fv : List UInt8) : Res Bool :=
  match value err st key with
  | none => .no err
  | some v =>
    if v.isEmpty then .bad
    else if v = tv then .ok true err
    else if v = fv then .ok false err
    else .bad

/-- The loop of `gensio_pparm_enum`, :2098-2103. -/
def enumFind (v : List UInt8) : List (List UInt8 × Int) → Option Int
  | [] => none
  | (n, x) :: l => if v.map toLower = n.map toLower then some x else enumFind v l

/-- `gensio_pparm_enum`, :2085-2108. -/
def enum (err : Bool) (st key : List UInt8) (l : List (List UInt8 × Int)) : Res Int :=
  match value err st key with
  | none => .no err
  | some v =>
    match enumFind v l with
    | some x => .ok x err
    | none => .bad

/-- The loop of `gensio_pparm_mode`, :2205-2219. -/
def modeLoop (m : Nat) : List UInt8 → Option Nat
  | [] => some m
  | c :: l =>
    if c = 114 then modeLoop (m ||| 4) l
    else if c = 119 then modeLoop (m ||| 2) l
    else if c = 120 then modeLoop (m ||| 1) l
    else none

/-- `gensio_pparm_mode`, :2187-2223. -/
def mode (err : Bool) (st key : List UInt8) : Res Nat :=
  match value err st key with
  | none => .no err
  | some v =>
    match v with
    | [] => .ok 0 err
    | c :: l =>
      if 48 ≤ c && c ≤ 55 then (if l.isEmpty then .ok (c.toNat - 48) err else .bad)
      else
        match modeLoop 0 (c :: l) with
        | some m => .ok m err
        | none => .bad

/-- `gensio_pparm_perm`, :2225-2245; the value becomes an `unsigned int`. -/
def perm (err : Bool) (st key : List UInt8) : Res Nat :=
  match value err st key with
  | none => .no err
  | some v =>
    let r := strtoul 8 v
    if r.2 = v || !r.2.isEmpty then .bad else .ok (r.1 % (uintMax + 1)) err

/-- An address as `gensio_scan_network_port` allocates it, with the number of the allocation, and whether it was freed. -/
structure Addr where
  id : Nat
  freed : Bool := false
  deriving DecidableEq, Repr

/-- `gensio_pparm_addrs`, :2110-2154.  `scan` is the result of `gensio_scan_network_port`: the address, whether the protocol is
the one asked for, and whether a port was given. -/
def addrs (err : Bool) (st key : List UInt8) (requirePort : Bool) (scan : Option (Addr × Bool × Bool)) : Res Addr :=
  match value err st key with
  | none => .no err
  | some v =>
    if v.isEmpty then .bad
    else
      match scan with
      | none => .bad
      | some (ai, protoOK, portSet) =>
        if requirePort && !portSet then .ok { ai with freed := true } true
        else if !protoOK then .bad
        else .ok ai err

/-- The parameters of a gensio that only has `gensio_base_parm`, `gensio_base.c` :2121-2130, in the loop that all gensios have:
`lib/gensio_xlt.c` :322-343 and others.  The result is `drain_timeout` or `none` for `GE_INVAL`. -/
def drainKey : List UInt8 := [100, 114, 97, 105, 110, 95, 116, 105, 109, 101, 111, 117, 116]
@[inherit_doc drainKey] def drainParms (err : Bool) (cur : Int) : List (List UInt8) → Option Int
  | [] => some cur
  | a :: l =>
    let r := int err a drainKey
    if r.rv > 0 then drainParms r.err (r.val.getD cur) l else none

/-- `l_gensio_set_default` for `GENSIO_DEFAULT_INT` with a text, :2909-2921. -/
def setDefaultInt (min max : Int) (s : List UInt8) : Option Int :=
  let r := strtoul 10 s
  if r.2 = s || !r.2.isEmpty then none
  else
    let v := toInt32 r.1
    if v < min || v > max then none else some v

/-! ## Times -/

/-- A result in `int64_t`; `none` is an overflow, which is undefined. -/
def i64 (z : Int) : Option Int := if -(longMax + 1 : Nat) ≤ z ∧ z ≤ longMax then some z else none

/-- Result of `gensio_str_to_time`: undefined, an error number, or the time. -/
inductive TRes
  | ub
  | bad (rv : Int)
  | ok (secs nsecs : Int)
  deriving DecidableEq, Repr

/-- `GENSIO_NSECS_IN_SEC`. -/
def nsecsInSec : Int := 1000000000

/-- `gensio_str_to_time` from `done`, :3796-3805.  `GE_INVAL` is 3. -/
def timeDone (secs nsecs : Int) (rest : List UInt8) : TRes :=
  match i64 (secs + nsecs.tdiv nsecsInSec) with
  | none => .ub
  | some s => if rest.isEmpty then .ok s (nsecs.tmod nsecsInSec) else .bad 3

/-- What a number with a unit of a second or more adds to the seconds, :3779-3782. -/
def bigUnit (c : UInt8) (v : Int) : Option (Option Int) :=
  if c = 68 then some ((i64 (v * 24)).bind fun x => i64 (x * 3600))
  else if c = 72 then some (i64 (v * 3600))
  else if c = 77 then some (i64 (v * 60))
  else if c = 115 then some (some v)
  else none

/-- What a number with a smaller unit is in nanoseconds, :3783-3785. -/
def smallUnit (c : UInt8) (v : Int) : Option (Option Int) :=
  if c = 109 then some (i64 (v * 1000000))
  else if c = 117 then some (i64 (v * 1000))
  else if c = 110 then some (some v)
  else none

/-- The loop of `gensio_str_to_time`, :3768-3795; in the loop `nsecs` is always 0 before a small unit.  The number of rounds
is bounded by the length of the text (`n`). -/
def timeLoop : Nat → Int → UInt8 → List UInt8 → TRes
  | 0, _, _, _ => .ub
  | n + 1, secs, mod, s =>
    match scanNum 0 s with
    | none => .bad 3
    | some (neg, m, r) =>
      let v := sat neg m
      let mod := r.headD mod
      let r := r.tail
      match bigUnit mod v with
      | some none => .ub
      | some (some x) =>
        match i64 (secs + x) with
        | none => .ub
        | some secs => if r.isEmpty then timeDone secs 0 r else timeLoop n secs 0 r
      | none =>
        match smallUnit mod v with
        | some none => .ub
        | some (some x) => timeDone secs x r
        | none => .bad (-1)

/-- `gensio_str_to_time`, :3760-3805. -/
def strToTime (s : List UInt8) (mod : UInt8) : TRes := timeLoop (s.length + 1) 0 mod s

/-- `gensio_pparm_time`, :2247-2265. -/
def time (err : Bool) (st key : List UInt8) (mod : UInt8) : Option (Res (Int × Int)) :=
  match value err st key with
  | none => some (.no err)
  | some v =>
    match strToTime v mod with
    | .ub => none
    | .bad _ => some .bad
    | .ok s n => some (.ok (s, n) err)

end Gensio.Pparm
