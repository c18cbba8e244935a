/-!
# Model of the string and argument scanner, lib/utils.c:326-779, 883-990

A C string is the list of its bytes before the terminating NUL (so the lists handed to
the scanner contain no `0`; theorems state this where it matters).  `char` arithmetic is
modulo 256 (`UInt8`); the `<ctype.h>` classes are those of the C locale.  Allocation
failure (GE_NOMEM) is not modelled.  The C code runs the scanner twice, the first time
only to count the output; both runs are the same deterministic function, so the second
run writes exactly the counted number of bytes; the model runs it once.
-/
namespace Gensio.Args

/-- `is_sep`, lib/utils.c:326-330. -/
def isSep (c : UInt8) (seps : List UInt8) : Bool := c != 0 && seps.contains c

/-- `skip_seps`, lib/utils.c:332-338. -/
def skipSeps : List UInt8 → List UInt8 → List UInt8
  | [], _ => []
  | c :: s, seps => if isSep c seps then skipSeps s seps else c :: s

/-- `isdigit` (C locale). -/
def isDigit (c : UInt8) : Bool := 48 ≤ c && c ≤ 57
/-- `isodigit`, lib/utils.c:340-344. -/
def isODigit (c : UInt8) : Bool := isDigit c && c != 56 && c != 57
/-- `isupper` (C locale). -/
def isUpper (c : UInt8) : Bool := 65 ≤ c && c ≤ 90
/-- `isxdigit` (C locale). -/
def isXDigit (c : UInt8) : Bool := isDigit c || (65 ≤ c && c ≤ 70) || (97 ≤ c && c ≤ 102)

/-- The changing part of `struct strtobuf_info`, lib/utils.c:346-357 (`out`/`len` are the
bytes produced so far). -/
structure St where
  inquote : UInt8
  cval : UInt8
  escape : Nat
  base : Nat
  out : List UInt8
deriving DecidableEq, Repr

/-- `strtobuf_init`, lib/utils.c:393-413. -/
def St.init : St := ⟨0, 0, 0, 0, []⟩

/-- `set_out`, lib/utils.c:363-369. -/
def setOut (st : St) (c : UInt8) : St := { st with out := st.out ++ [c] }

/-- What one character does to the scan loop. -/
inductive Next where
  | cont            -- go on with the next character
  | brkSkip         -- `p++; break`
  | brk             -- `break`
deriving DecidableEq, Repr

/-- The part after the label `process_char`, lib/utils.c:469-488. -/
def processChar (seps endchars : List UInt8) (st : St) (c : UInt8) : St × Next :=
  if c = st.inquote then ({ st with inquote := 0 }, .cont)
  else if st.inquote = 0 ∧ (c = 39 ∨ c = 34) then ({ st with inquote := c }, .cont)
  else if c = 92 then ({ st with escape := 1 }, .cont)
  else if st.inquote = 0 then
    if isSep c seps then (st, .brkSkip)
    else if endchars.contains c then (st, .brk)
    else (setOut st c, .cont)
  else (setOut st c, .cont)

/-- The simple escapes, lib/utils.c:435-444. -/
def simpleEsc (c : UInt8) : UInt8 :=
  if c = 97 then 7 else if c = 98 then 8 else if c = 102 then 12 else if c = 110 then 10
  else if c = 114 then 13 else if c = 116 then 9 else if c = 118 then 11 else c

/-- One iteration of the loop of `strtobuf`, lib/utils.c:423-489. -/
def stepChar (seps endchars : List UInt8) (st : St) (c : UInt8) : St × Next :=
  if st.escape ≠ 0 then
    if st.escape = 1 then
      let st := { st with cval := 0 }
      if isODigit c then ({ st with base := 8, cval := c - 48, escape := st.escape + 1 }, .cont)
      else if c = 120 then ({ st with base := 16, escape := st.escape + 1 }, .cont)
      else ({ setOut st (simpleEsc c) with escape := 0 }, .cont)
    else
      if (st.base = 16 ∧ isXDigit c) ∨ isODigit c then
        let cv :=
          if isDigit c then st.cval * st.base.toUInt8 + c - 48
          else if isUpper c then st.cval * st.base.toUInt8 + c - 65
          else st.cval * st.base.toUInt8 + c - 97
        let st := { st with cval := cv }
        if st.escape ≥ 3 then ({ setOut st cv with escape := 0 }, .cont)
        else ({ st with escape := st.escape + 1 }, .cont)
      else processChar seps endchars { setOut st st.cval with escape := 0 } c
  else processChar seps endchars st c

/-- `strtobuf`, lib/utils.c:418-492: final state and the rest of the string. -/
def strtobuf (seps endchars : List UInt8) (st : St) : List UInt8 → St × List UInt8
  | [] => (st, [])
  | c :: s =>
    match stepChar seps endchars st c with
    | (st, .cont) => strtobuf seps endchars st s
    | (st, .brkSkip) => (st, s)
    | (st, .brk) => (st, c :: s)

/-- `strtobuf_finish`, lib/utils.c:497-510: the output, or `none` for GE_INVAL. -/
def strtobufFinish (st : St) : Option (List UInt8) :=
  let st := if (st.base = 8 ∧ st.escape > 1) ∨ (st.base = 16 ∧ st.escape > 2)
    then { setOut st st.cval with escape := 0 } else st
  if st.inquote ≠ 0 ∨ st.escape ≠ 0 then none else some st.out

/-- `gensio_cstr_to_buf`, lib/utils.c:512-539; `none` is GE_INVAL. -/
def cstrToBuf (s : List UInt8) : Option (List UInt8) :=
  strtobufFinish (strtobuf [] [] St.init s).1

/-- Result of `gettok`. -/
inductive Tok where
  | inval                                     -- GE_INVAL
  | done (rest : List UInt8)                  -- `*tok = NULL`
  | tok (t : List UInt8) (rest : List UInt8)
deriving DecidableEq, Repr

/-- `gettok`, lib/utils.c:654-689 (and `cstr_gettok`, 546-583, which differs only in the
returned length instead of the terminating NUL). -/
def gettok (seps endchars : List UInt8) (s : List UInt8) : Tok :=
  match skipSeps s seps with
  | [] => .done []
  | c :: p =>
    if endchars.contains c then .done (c :: p)
    else
      let r := strtobuf seps endchars St.init (c :: p)
      match strtobufFinish r.1 with
      | none => .inval
      | some t => .tok t r.2

/-- Outcome of the splitters: an endless loop is a distinct outcome. -/
inductive Res where
  | inval
  | loop
  | ok (argv : List (List UInt8)) (next : List UInt8)
deriving DecidableEq, Repr

/-- The loop of `gensio_str_to_argv_endchar`, lib/utils.c:706-717. -/
def argvLoop (seps endchars : List UInt8) : Nat → List UInt8 → List (List UInt8) → Res
  | 0, _, _ => .loop
  | fuel + 1, s, acc =>
    match gettok seps endchars s with
    | .inval => .inval
    | .done rest => .ok acc rest
    | .tok t rest => argvLoop seps endchars fuel rest (acc ++ [t])

/-- `" \f\n\r\t\v"`, lib/utils.c:704. -/
def defaultSeps : List UInt8 := [32, 12, 10, 13, 9, 11]

/-- `gensio_str_to_argv_endchar`, lib/utils.c:691-738, with the separator string given. -/
def strToArgvEndchar (seps endchars s : List UInt8) : Res :=
  argvLoop seps endchars (s.length + 1) s []

/-- `gensio_str_to_argv`, lib/utils.c:740-746; `seps = none` is the NULL pointer. -/
def strToArgv (seps : Option (List UInt8)) (s : List UInt8) : Res :=
  strToArgvEndchar (match seps with | none => defaultSeps | some x => x) [] s

/-- `gensio_scan_args`, lib/utils.c:748-779: arguments and the rest of the string. -/
def scanArgs (s : List UInt8) : Res :=
  match s with
  | 40 :: s =>                                        -- '('
    match strToArgvEndchar (defaultSeps ++ [44]) [41] s with
    | .ok argv (41 :: str) =>                          -- ')'
      match str with
      | [] => .ok argv []
      | 44 :: str => .ok argv str                      -- ','
      | _ :: _ => .inval
    | .ok _ _ => .inval
    | r => r
  | [] => .ok [] []
  | _ :: s => .ok [] s                                 -- "skip the comma"

/-- One character of the loops of `gensio_quote_string` / `gensio_quote_str`. -/
def quoteChar (c : UInt8) : List UInt8 := if c = 92 ∨ c = 34 then [92, c] else [c]

/-- `gensio_quote_string`, lib/utils.c:962-990 (the text of `gensio_quote_str`,
lib/utils.c:883-904, is the same). -/
def quoteString (s : List UInt8) : List UInt8 := 34 :: (s.flatMap quoteChar ++ [34])

/-- The allocation size computed by `gensio_quote_string`, lib/utils.c:967-974. -/
def quoteAlloc (s : List UInt8) : Nat :=
  s.foldl (fun n c => if c = 92 ∨ c = 34 then n + 2 else n + 1) 3

/-! ## Printing into a bounded buffer -/

/-- Buffer of `len` bytes and the running position (which may pass the end). -/
structure PBuf where
  mem : List UInt8
  pos : Nat
deriving DecidableEq, Repr

/-- `gensio_pos_snprintf`, lib/utils.c:854-881, for the literal text `t` (the formats used
here produce exactly one known text).  `vsnprintf` stores at most `size - 1` characters
and a NUL, nothing if `size` is 0, and returns the full length. -/
def posSnprintf (b : PBuf) (t : List UInt8) : PBuf × Nat :=
  if b.pos > b.mem.length then ({ b with pos := b.pos + t.length }, t.length)
  else
    let size := b.mem.length - b.pos
    let stored := if size = 0 then [] else t.take (size - 1) ++ [0]
    ({ mem := b.mem.take b.pos ++ stored ++ b.mem.drop (b.pos + stored.length),
       pos := b.pos + t.length }, t.length)

/-- The `while (*arg)` loop of `gensio_quote_str`, lib/utils.c:889-897. -/
def quoteLoop : PBuf → Nat → List UInt8 → PBuf × Nat
  | b, olen, [] => (b, olen)
  | b, olen, c :: s =>
    let r := posSnprintf b (quoteChar c)
    quoteLoop r.1 (olen + r.2) s

/-- `buf[*pos] = '\0'` if there is room, lib/utils.c:900-901, 926-927. -/
def nulAt (b : PBuf) : PBuf :=
  if b.pos < b.mem.length then { b with mem := b.mem.set b.pos 0 } else b

/-- `gensio_quote_str`, lib/utils.c:883-904. -/
def quoteStr (b : PBuf) (s : List UInt8) : PBuf × Nat :=
  let r := posSnprintf b [34]
  let r2 := quoteLoop r.1 r.2 s
  let r3 := posSnprintf r2.1 [34]
  (nulAt r3.1, r2.2 + r3.2)

/-- Loop of `gensio_argv_snprintf`, lib/utils.c:915-924. -/
def argvSnLoop : PBuf → Nat → Bool → List (List UInt8) → PBuf × Nat
  | b, olen, _, [] => (b, olen)
  | b, olen, first, a :: argv =>
    let r := if first then (b, 0) else posSnprintf b [32]
    let r2 := quoteStr r.1 a
    argvSnLoop r2.1 (olen + r.2 + r2.2) false argv

/-- `gensio_argv_snprintf`, lib/utils.c:906-930, with `pos = NULL`: final memory and the
returned length. -/
def argvSnprintf (mem : List UInt8) (argv : List (List UInt8)) : List UInt8 × Nat :=
  let r := argvSnLoop ⟨mem, 0⟩ 0 true argv
  ((nulAt r.1).mem, r.2)

end Gensio.Args
