import Verif.Model.CLib
/-!
# Model of lib/net_ax25_addr.c

`char addr[7]` is a list of 7 bytes; `uint8_t` bit fields are `Nat`/`Bool`; `extra[0 .. nr_extra]`
is a list (the array has room for 8).  Allocation failure is left out.  Text is written without the
buffer limit (`gensio_pos_snprintf` is modelled in `Verif/Model/Args.lean`).  Reading outside the
received data and a failed assertion are the outcome `none`.
-/
namespace Gensio.Ax25Addr

open Gensio.CLib

/-- `GENSIO_AX25_ADDR_MAX_EXTRA`, gensio_ax25_addr.h:42. -/
abbrev maxExtra : Nat := 8

/-- `struct gensio_ax25_subaddr`, gensio_ax25_addr.h:15-24. -/
structure Sub where
  addr : List UInt8
  ssid : Nat
  ch : Bool
  r1 : Bool
  r2 : Bool
  r3 : Bool
deriving DecidableEq, Repr

/-- All zero, as from `zalloc`. -/
def Sub.zero : Sub := ⟨[0, 0, 0, 0, 0, 0, 0], 0, false, false, false, false⟩

/-- `struct gensio_ax25_addr`, gensio_ax25_addr.h:43-51. -/
structure Addr where
  tncPort : Nat
  dest : Sub
  src : Sub
  extra : List Sub
deriving DecidableEq, Repr

/-- The string in a `char` array. -/
def cstr (m : List UInt8) : List UInt8 := m.takeWhile (· ≠ 0)

/-- `ax25_subaddr_equal`, :16-25. -/
def subEqual (a b : Sub) : Bool := cstr a.addr = cstr b.addr && a.ssid = b.ssid

/-- The loop over `extra`, :44-49. -/
def extraEqual : List Sub → List Sub → Bool
  | a :: as, b :: bs => cstr a.addr = cstr b.addr && a.ssid = b.ssid && extraEqual as bs
  | _, _ => true

/-- `ax25_addr_equal`, :27-51. -/
def addrEqual (a b : Addr) (ports all : Bool) : Bool :=
  if ports && a.tncPort ≠ b.tncPort then false
  else if !subEqual a.dest b.dest then false
  else if !subEqual a.src b.src then false
  else if !all then true
  else if a.extra.length ≠ b.extra.length then false
  else extraEqual a.extra b.extra

/-! ### Text -/

/-- `ax25_subaddr_to_str`, :53-65. -/
def subToStr (a : Sub) (doCr : Bool) : List UInt8 :=
  (if a.ssid ≠ 0 then cstr a.addr ++ [45] ++ dec a.ssid else cstr a.addr) ++
  (if doCr then [58, if a.ch then 99 else 114] else [])

/-- `"ax25:"`. -/
def prefixStr : List UInt8 := [97, 120, 50, 53, 58]

/-- The loop of `ax25_addr_to_str`, :79-84. -/
def extraToStr : List Sub → List UInt8
  | [] => []
  | e :: es => [44] ++ subToStr e false ++ (if e.ch then [58, 104] else []) ++ extraToStr es

/-- `ax25_addr_to_str`, :67-87. -/
def addrToStr (a : Addr) : List UInt8 :=
  prefixStr ++ dec a.tncPort ++ [44] ++ subToStr a.dest false ++ [44] ++ subToStr a.src false ++
    extraToStr a.extra

/-- The loop over the call sign, :183-194: `none` for GE_INVAL, else the array and the rest at
`s[i]`.  `fuel` is `6 - i`. -/
def callLoop (m : List UInt8) (i : Nat) : Nat → List UInt8 → Option (List UInt8 × Nat × List UInt8)
  | 0, s => some (m, i, s)
  | _ + 1, [] => some (m, i, [])
  | n + 1, c :: s =>
    if isUpper c || isDigit c then callLoop (m.set i c) (i + 1) n s
    else if isLower c then callLoop (m.set i (toUpper c)) (i + 1) n s
    else if c = 45 then some (m, i, c :: s)
    else none

/-- The loop clearing the rest of the array, :202-204: from `i` on. -/
def clearFrom (m : List UInt8) (i : Nat) : List UInt8 := m.take i ++ List.replicate (m.length - i) 0

/-- `ax25_str_to_subaddr`, :173-225, filling `a`; `none` is GE_INVAL.  (On an error `a` may have been
changed; every caller drops it.) -/
def strToSub (s : List UInt8) (a : Sub) (isCr : Bool) : Option Sub :=
  if s = [] then none
  else
    match callLoop a.addr 0 6 s with
    | none => none
    | some (m, i, rest) =>
      match rest with
      | [] => some { a with addr := m, ssid := 0 }
      | c :: rest =>
        if c ≠ 45 then none
        else
          let m := clearFrom m i
          let r := strtoul10 rest
          let j := r.1 % 2 ^ 32
          match r.2 with
          | [] => if j ≥ 16 then none else some ⟨m, j, false, true, true, true⟩
          | e :: end_ =>
            if e = 58 then
              if !isCr && e :: end_ = [58, 104] then
                if j ≥ 16 then none else some ⟨m, j, true, true, true, true⟩
              else none
            else none

/-- The loop over the extra strings, :252-256. -/
def allocExtra : List (List UInt8) → Option (List Sub)
  | [] => some []
  | s :: ss => do
    let e ← strToSub s Sub.zero false
    some (e :: (← allocExtra ss))

/-- `gensio_ax25_addr_alloc`, :227-265; `none` is GE_INVAL.  `tnc_port` is not stored: the
structure keeps the 0 of `zalloc`. -/
def addrAlloc (_tncPort : Nat) (dest src : List UInt8) (extras : List (List UInt8)) : Option Addr :=
  if extras.length > maxExtra then none
  else do
    let d ← strToSub dest Sub.zero true
    let s ← strToSub src Sub.zero true
    let e ← allocExtra extras
    some ⟨0, d, s, e⟩

/-- `strchr(s, ',')`: what is before it, and after it if there is one. -/
def splitComma : List UInt8 → List UInt8 × Option (List UInt8)
  | [] => ([], none)
  | c :: s =>
    if c = 44 then ([], some s)
    else
      let r := splitComma s
      (c :: r.1, r.2)

/-- The loop over the extra fields, :291-295, starting at `end`: the fields and whether text is left
after the last (`fuel` is how many more there may be). -/
def splitExtras : Nat → Option (List UInt8) → List (List UInt8) × Bool
  | _, none => ([], false)
  | 0, some _ => ([], true)
  | n + 1, some e =>
    let r := splitComma e
    let q := splitExtras n r.2
    (r.1 :: q.1, q.2)

/-- `strncmp(instr, "ax25:", 5) == 0`, :276-277. -/
def dropPrefix (s : List UInt8) : List UInt8 :=
  if s.take 5 = prefixStr then s.drop 5 else s

/-- `gensio_ax25_str_to_addr`, :267-310; `none` is GE_INVAL. -/
def strToAddr (s : List UInt8) : Option Addr :=
  match dropPrefix s with
  | [] => none
  | c :: t =>
    if !isDigit c then none
    else
      let r := strtoul10 (c :: t)
      match r.2 with
      | 44 :: rest =>
        let d := splitComma rest
        match d.2 with
        | none => none
        | some rest =>
          let sr := splitComma rest
          let ex := splitExtras maxExtra sr.2
          if ex.2 then none else addrAlloc (r.1 % 256) d.1 sr.1 ex.1
      | _ => none

/-- `strchr(s, ';')`: what is before it, and after it if there is one. -/
def splitSemi : List UInt8 → List UInt8 × Option (List UInt8)
  | [] => ([], none)
  | c :: s =>
    if c = 59 then ([], some s)
    else
      let r := splitSemi s
      (c :: r.1, r.2)

/-- The loop of `ax25_scan_laddrs`, lib/gensio_ax25.c:5129-5148, for `n` more addresses: `none` for
GE_INVAL.  The address is copied to `addrstr`, but `str` is what is parsed (:5141). -/
def scanLoop : Nat → List UInt8 → Option (List Sub)
  | 0, _ => some []
  | n + 1, str =>
    let r := splitSemi str
    if r.1.length > 9 then none
    else do
      let a ← strToSub str Sub.zero false
      some (a :: (← scanLoop n (r.2.getD str)))

/-- `ax25_scan_laddrs`, lib/gensio_ax25.c:5111-5153. -/
def scanLaddrs (str : List UInt8) : Option (List Sub) := scanLoop (str.count 59 + 1) str

/-! ### Wire format -/

/-- What `decode_ax25_subaddr` returns. -/
inductive Rc where
  | ok
  | inval
  | remclose
deriving DecidableEq, Repr

/-- The loop of `decode_ax25_subaddr`, :323-329.  Outer `none` is a read outside the data, inner
`none` is GE_INVAL. -/
def decodeCall (data : List UInt8) (pos : Nat) (i : Nat) : Nat → Option (Option (List UInt8))
  | 0 => some (some [])
  | n + 1 => do
    let b ← data[i + pos]?
    if b &&& 1 ≠ 0 then some none
    else
      let c := b >>> 1
      let c := if c = 32 then 0 else c
      match ← decodeCall data pos (i + 1) n with
      | none => some none
      | some cs => some (some (c :: cs))

/-- `decode_ax25_subaddr`, :312-338: return code, sub address and new position.  `len - *ipos` is unsigned
(64 bits). -/
def decodeSub (data : List UInt8) (pos len : Nat) : Option (Rc × Sub × Nat) :=
  if (len + 2 ^ 64 - pos) % 2 ^ 64 < 7 then some (.inval, Sub.zero, pos)
  else do
    match ← decodeCall data pos 0 6 with
    | none => some (.inval, Sub.zero, pos)
    | some cs =>
      let b ← data[6 + pos]?
      let a : Sub := ⟨cs ++ [0], ((b >>> 1) &&& 0xf).toNat, (b >>> 7) &&& 1 ≠ 0, (b >>> 5) &&& 1 ≠ 0, (b >>> 6) &&& 1 ≠ 0, true⟩
      some (if b &&& 1 ≠ 0 then .remclose else .ok, a, pos + 7)

/-- The loop of `decode_ax25_addr`, :358-367: GE_INVAL or the extra addresses and the position. -/
def decodeExtra (data : List UInt8) (len : Nat) : Nat → Nat → Option (Option (List Sub × Nat))
  | 0, _ => some none
  | n + 1, pos => do
    match ← decodeSub data pos len with
    | (.inval, _, _) => some none
    | (.remclose, e, pos) => some (some ([e], pos))
    | (.ok, e, pos) =>
      match ← decodeExtra data len n pos with
      | none => some none
      | some (es, p) => some (some (e :: es, p))

/-- `decode_ax25_addr`, :340-370.  Inner `none` is an error return. -/
def decodeAddr (data : List UInt8) (pos len : Nat) (tncPort : Nat) : Option (Option (Addr × Nat)) := do
  match ← decodeSub data pos len with
  | (.ok, d, pos) =>
    match ← decodeSub data pos len with
    | (.inval, _, _) => some none
    | (.remclose, s, pos) => some (some (⟨tncPort % 256, d, s, []⟩, pos))
    | (.ok, s, pos) =>
      match ← decodeExtra data len maxExtra pos with
      | none => some none
      | some (es, p) => some (some (⟨tncPort % 256, d, s, es⟩, p))
  | (_, _, _) => some none

/-- `ax25_addr_encode_len`, :372-379. -/
def encodeLen (a : Addr) : Option Nat :=
  if a.extra.length ≤ maxExtra then some (7 * (2 + a.extra.length)) else none

/-- `encode_ax25_subaddr`, :381-394: the 7 bytes written. -/
def encodeSub (a : Sub) : List UInt8 :=
  let c := (cstr (a.addr.take 6)).map fun b : UInt8 => b <<< 1
  c ++ List.replicate (6 - c.length) 64 ++ [UInt8.ofNat (a.ssid * 2) ||| (if a.ch then 128 else 0)]

/-- `buf[len - 1] |= 1`, :413. -/
def markEnd (l : List UInt8) : List UInt8 := l.set (l.length - 1) (l.getD (l.length - 1) 0 ||| 1)

/-- `ax25_addr_encode`, :396-416. -/
def encodeAddr (a : Addr) : Option (List UInt8) :=
  if a.extra.length ≤ maxExtra then
    some (markEnd (encodeSub a.dest ++ encodeSub a.src ++ a.extra.flatMap encodeSub))
  else none

end Gensio.Ax25Addr
