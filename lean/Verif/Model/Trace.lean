/-!
# The filter that writes a trace, and the hex dump it uses

`lib/gensio_trace.c` :62-362 and `gensio_fdump_init`, `gensio_fdump_buf`, `gensio_fdump_buf_finish` of `lib/gensio.c` :3707-3758.
The dump file is a list of bytes that never fails to be written; `isprint` is the one of the C locale.  A result `none` is a write behind
the end of `data[16]`.  The lock of :123 and :153 makes an entry of the trace one step.
-/
namespace Gensio.Trace

/-- A digit of `%x`. -/
def hexDig (n : Nat) : UInt8 := if n < 10 then UInt8.ofNat (48 + n) else UInt8.ofNat (87 + n)

/-- `%4.4x` for a number below 2^32: at least four digits, `gensio.c` :3723. -/
def hex4 (n : Nat) : List UInt8 :=
  (if n ≥ 16 ^ 7 then [hexDig (n / 16 ^ 7)] else []) ++ (if n ≥ 16 ^ 6 then [hexDig (n / 16 ^ 6 % 16)] else []) ++
  (if n ≥ 16 ^ 5 then [hexDig (n / 16 ^ 5 % 16)] else []) ++ (if n ≥ 16 ^ 4 then [hexDig (n / 16 ^ 4 % 16)] else []) ++
  [hexDig (n / 4096 % 16), hexDig (n / 256 % 16), hexDig (n / 16 % 16), hexDig (n % 16)]

/-- ` %2.2x`, `gensio.c` :3724. -/
def hexByte (b : UInt8) : List UInt8 := [32, hexDig (b.toNat / 16), hexDig (b.toNat % 16)]

/-- What is shown of a byte, `gensio.c` :3730-3733 and :3753-3756. -/
def shown (b : UInt8) : UInt8 := if 32 ≤ b ∧ b < 127 then b else 46

/-- `struct gensio_fdump`, `include/gensio/gensio.h` :706-711. -/
structure Dump where
  column : Nat := 0
  pos : Nat := 0
  indent : Nat := 0
  data : List UInt8 := List.replicate 16 0
deriving DecidableEq, Repr

/-- `gensio_fdump_init`, `gensio.c` :3707-3713.  The bytes of `data` stay as they were. -/
def Dump.init (h : Dump) (indent : Nat) : Dump := { h with column := 0, pos := 0, indent := indent }

/-- `gensio_fdump_buf`, `gensio.c` :3715-3739: the text that is written and the new state. -/
def Dump.buf (h : Dump) : List UInt8 → Option (List UInt8 × Dump)
  | [] => some ([], h)
  | b :: bs =>
    let front := if h.column = 0 then List.replicate h.indent 32 ++ hex4 h.pos ++ [58] else []
    if h.column ≥ 16 then none
    else
      let h : Dump := { h with data := h.data.set h.column b, column := h.column + 1, pos := (h.pos + 1) % 2 ^ 32 }
      if h.column = 16 then
        match Dump.buf { h with column := 0 } bs with
        | none => none
        | some (o, h') => some (front ++ hexByte b ++ ([32, 32] ++ (h.data.take 16).map shown ++ [10]) ++ o, h')
      else
        match Dump.buf h bs with
        | none => none
        | some (o, h') => some (front ++ hexByte b ++ o, h')

/-- `gensio_fdump_buf_finish`, `gensio.c` :3741-3758. -/
def Dump.finish (h : Dump) : List UInt8 :=
  if h.column = 0 then []
  else List.replicate (3 * (16 - h.column)) 32 ++ [32, 32] ++ (h.data.take h.column).map shown ++ [10]

/-- `enum trace_dir`, `gensio_trace.c` :21-26. -/
inductive Dir | none | read | write | both
deriving DecidableEq, Repr

/-- `DIR_WRITE` or `DIR_BOTH`, :167, :175, :187. -/
def Dir.w (d : Dir) : Bool := d == .write || d == .both

/-- `DIR_READ` or `DIR_BOTH`, :206, :212, :219. -/
def Dir.r (d : Dir) : Bool := d == .read || d == .both

/-- Where the trace goes, :91-97; standard output is chosen before standard error and both before a file. -/
inductive Sink | none | stdout | stderr | file
deriving DecidableEq, Repr

/-- The arguments, :372-417. -/
structure Cfg where
  dir : Dir := .none
  b4 : Dir := .none
  block : Dir := .none
  raw : Bool := false
  sink : Sink := .none
  delold : Bool := false

/-- :327-328: without a place for the trace `dir` is not used. -/
def Cfg.alloc (c : Cfg) : Cfg := if c.sink = .none then { c with dir := .none } else c

/-- `gensio_time`. -/
structure T where
  secs : Nat
  nsecs : Nat
deriving DecidableEq, Repr

/-- `%lld` and `%lu`. -/
def dec (n : Nat) : List UInt8 := (Nat.toDigits 10 n).map fun c => UInt8.ofNat c.toNat

/-- `%6.6d` of the microseconds, :128 and :138. -/
def T.usecs (t : T) : Nat := (t.nsecs + 500) / 1000

/-- The front of an entry, :127 and :137. -/
def front (t : T) : List UInt8 :=
  dec t.secs ++ [58] ++ List.replicate (6 - (dec t.usecs).length) 48 ++ dec t.usecs ++ [32]

/-- The name of an entry: "b4Write", "Write", "b4Read" and "Read". -/
inductive Op | b4Write | write | b4Read | read
deriving DecidableEq, Repr

/-- The text of the name. -/
def Op.name : Op → List UInt8
  | .b4Write => [98, 52, 87, 114, 105, 116, 101]
  | .write => [87, 114, 105, 116, 101]
  | .b4Read => [98, 52, 82, 101, 97, 100]
  | .read => [82, 101, 97, 100]

/-- The line of an error, :127-129, with the text of the error as a parameter. -/
def errLine (t : T) (op : Op) (txt : Nat → List UInt8) (err : Nat) : List UInt8 :=
  front t ++ op.name ++ [32, 101, 114, 114, 111, 114, 58, 32] ++ dec err ++ [32] ++ txt err ++ [10]

/-- The first line of an entry, :137-139. -/
def headLine (t : T) (op : Op) (n : Nat) : List UInt8 := front t ++ op.name ++ [32, 40] ++ dec n ++ [41, 58, 10]

/-- The loop of :140-149. -/
def pieces (raw : Bool) : List (List UInt8) → Nat → Dump → Option (List UInt8 × Dump)
  | [], _, h => some ([], h)
  | b :: bs, w, h =>
    if w = 0 then some ([], h)
    else
      let len := if b.length > w then w else b.length
      match (if raw then some (b.take len, h) else h.buf (b.take len)) with
      | none => none
      | some (o, h) =>
        match pieces raw bs (w - len) h with
        | none => none
        | some (o2, h) => some (o ++ o2, h)

/-- `struct trace_filter`, :28-45.  `tr` is the open file; `out` is what the file holds; `fds` and `closed` are notes: files opened and closed. -/
structure S where
  tr : Sink := .none
  out : List UInt8 := []
  fds : Nat := 0
  closed : Nat := 0
deriving DecidableEq, Repr

/-- `trace_try_connect`, :86-101.  `ok` is whether `fopen` works; with mode "w" the old contents are gone.  The error is `GE_PERM`. -/
def S.connect (c : Cfg) (ok : Bool) (s : S) : S × Nat :=
  match c.sink with
  | .stdout => ({ s with tr := .stdout }, 0)
  | .stderr => ({ s with tr := .stderr }, 0)
  | .file =>
    if ok then ({ s with tr := .file, fds := s.fds + 1, out := if c.delold then [] else s.out }, 0) else ({ s with tr := .none }, 36)
  | .none => (s, 0)

/-- `trace_filter_cleanup`, :236-244. -/
def S.cleanup (c : Cfg) (s : S) : S :=
  let s := if c.sink ≠ .stdout ∧ c.sink ≠ .stderr ∧ s.tr ≠ .none then { s with closed := s.closed + 1 } else s
  { s with tr := .none }

/-- `trace_data`, :109-154.  `h` is the memory of the dump on the stack. -/
def S.data (c : Cfg) (t : T) (txt : Nat → List UInt8) (h : Dump) (op : Op) (err written : Nat) (sg : List (List UInt8)) (s : S) : Option S :=
  if s.tr = .none then some s
  else if err ≠ 0 then
    if c.raw then some s else some { s with out := s.out ++ errLine t op txt err }
  else if written > 0 then
    match pieces c.raw sg written (h.init 1) with
    | none => none
    | some (o, h) =>
      some { s with out := s.out ++ (if c.raw then [] else headLine t op written) ++ o ++ h.finish }
  else some s

/-- What happens around one call: the time, the memory of the dump, and what the handler answers (error and count). -/
structure Env where
  t1 : T
  t2 : T
  h : Dump
  err : Nat := 0
  count : Nat := 0

/-- The answer of a write or read: the error, the count if it is written, and what the handler was given if it was called. -/
structure Ans where
  err : Nat
  count : Option Nat
  passed : Option (List (List UInt8))
deriving DecidableEq, Repr

/-- The sum of :170-171 and :179-180. -/
def total (sg : List (List UInt8)) : Nat := (sg.map List.length).sum

/-- `trace_ul_write`, :156-193.  `count` is the variable of :165. -/
def S.ulWrite (c : Cfg) (txt : Nat → List UInt8) (e : Env) (sg : List (List UInt8)) (s : S) : Option (S × Ans) :=
  let count := if c.b4.w then 0 + total sg else 0
  match (if c.b4.w then s.data c e.t1 txt e.h .b4Write 0 count sg else some s) with
  | none => none
  | some s =>
    if c.block.w then some (s, ⟨0, some (count + total sg), none⟩)
    else
      match (if c.dir.w then s.data c e.t2 txt e.h .write e.err e.count sg else some s) with
      | none => none
      | some s => some (s, ⟨e.err, if e.err = 0 then some e.count else none, some sg⟩)

/-- `trace_ll_write`, :195-228. -/
def S.llWrite (c : Cfg) (txt : Nat → List UInt8) (e : Env) (buf : List UInt8) (s : S) : Option (S × Ans) :=
  match (if c.b4.r then s.data c e.t1 txt e.h .b4Read 0 buf.length [buf] else some s) with
  | none => none
  | some s =>
    if c.block.r then some (s, ⟨0, some buf.length, none⟩)
    else
      match (if c.dir.r then s.data c e.t2 txt e.h .read e.err e.count [buf] else some s) with
      | none => none
      | some s => some (s, ⟨e.err, if e.err = 0 then some e.count else none, some [buf]⟩)

/-- The calls of the base. -/
inductive Ev
  | connect (ok : Bool)
  | cleanup
  | ulWrite (e : Env) (sg : List (List UInt8))
  | llWrite (e : Env) (buf : List UInt8)

/-- One call. -/
def S.step (c : Cfg) (txt : Nat → List UInt8) (s : S) : Ev → Option S
  | .connect ok => some (s.connect c ok).1
  | .cleanup => some (s.cleanup c)
  | .ulWrite e sg => (s.ulWrite c txt e sg).map (·.1)
  | .llWrite e buf => (s.llWrite c txt e buf).map (·.1)

/-- A history. -/
def S.run (c : Cfg) (txt : Nat → List UInt8) (s : S) : List Ev → Option S
  | [] => some s
  | e :: es =>
    match s.step c txt e with
    | none => none
    | some s' => s'.run c txt es

end Gensio.Trace
