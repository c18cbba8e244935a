import Verif.Model.Mem
/-!
# Model of `lib/buffer.c` and `include/gensio/gensio_buffer.h`

`unsigned int` is `Nat`: all sums are below twice the buffer size.  The sink called by
`gensio_buffer_write` is an oracle: `none` = it returns an error, `some k` = it takes `k`
bytes (at most what it was offered; a sink claiming more is clipped, which its contract
forbids).  Out-of-bounds accesses are the outcome `none`.
-/
namespace Gensio.Buffer

/-- `struct gensio_buffer`, include/gensio/gensio_buffer.h:13-18. -/
structure GB where
  buf : Mem
  maxsize : Nat
  cursize : Nat
  pos : Nat
deriving DecidableEq, Repr

/-- `gensio_buffer_init`, lib/buffer.c:114-130; `data` is the memory handed in or malloced. -/
def init (data : Mem) : GB := { buf := data, maxsize := data.length, cursize := 0, pos := 0 }

/-- Macro `gensio_buffer_left`, gensio_buffer.h:60. -/
abbrev left (b : GB) : Nat := b.maxsize - b.cursize

/-- `gensio_buffer_output`, lib/buffer.c:70-95: new buffer and the returned number. -/
def output (b : GB) (data : List UInt8) : Option (GB × Nat) := do
  let len := if left b < data.length then left b else data.length
  let e := b.pos + b.cursize
  let e := if e > b.maxsize then e - b.maxsize else e
  if e + len > b.maxsize then
    let availend := b.maxsize - e
    let m ← b.buf.write e (data.take availend)
    let b := { b with buf := m, cursize := b.cursize + availend }
    let len := len - availend
    let m ← b.buf.write 0 ((data.drop availend).take len)
    some ({ b with buf := m, cursize := b.cursize + len }, len)
  else
    let m ← b.buf.write e (data.take len)
    some ({ b with buf := m, cursize := b.cursize + len }, len)

/-- `gensio_buffer_outchar`, lib/buffer.c:97-112. -/
def outchar (b : GB) (ch : UInt8) : Option (GB × Nat) :=
  if left b < 1 then some (b, 0)
  else do
    let e := b.pos + b.cursize
    let e := if e ≥ b.maxsize then e - b.maxsize else e
    let m ← b.buf.write e [ch]
    some ({ b with buf := m, cursize := b.cursize + 1 }, 1)

/-- Second half of `gensio_buffer_write`, lib/buffer.c:57-67. -/
def writeTail (b : GB) (towrite2 : Nat) (sink2 : Option Nat) (out : List UInt8) :
    Option (GB × List UInt8 × Bool) :=
  if towrite2 > 0 then do
    let b := { b with pos := 0 }
    let d ← b.buf.read 0 towrite2
    match sink2 with
    | none => some (b, out, false)
    | some k =>
      let k := min k towrite2
      some ({ b with pos := b.pos + k, cursize := b.cursize - k }, out ++ d.take k, true)
  else some (b, out, true)

/-- `gensio_buffer_write`, lib/buffer.c:29-68.  `sink1`, `sink2` are the answers of the
sink to the first and second call.  Result: buffer, bytes the sink took, success. -/
def write (b : GB) (sink1 sink2 : Option Nat) : Option (GB × List UInt8 × Bool) :=
  let towrite1 := if b.pos + b.cursize > b.maxsize then b.maxsize - b.pos else b.cursize
  let towrite2 := if b.pos + b.cursize > b.maxsize then b.cursize - towrite1 else 0
  if towrite1 > 0 then do
    let d ← b.buf.read b.pos towrite1
    match sink1 with
    | none => some (b, [], false)
    | some k =>
      let k := min k towrite1
      let b := { b with pos := b.pos + k, cursize := b.cursize - k }
      if k < towrite1 then some (b, d.take k, true)
      else writeTail b towrite2 sink2 (d.take k)
  else writeTail b towrite2 sink2 []

/-- Operations of a user of the buffer. -/
inductive Op where
  | output (d : List UInt8)
  | outchar (c : UInt8)
  | write (sink1 sink2 : Option Nat)
deriving Repr

/-- What is observed: bytes the sink got, number returned, and `cursize`/`left` after. -/
structure Obs where
  data : List UInt8
  count : Nat
  cursize : Nat
  left : Nat
deriving DecidableEq, Repr

def step (b : GB) : Op → Option (GB × Obs)
  | .output d => do let (b, n) ← output b d; some (b, ⟨[], n, b.cursize, left b⟩)
  | .outchar c => do let (b, n) ← outchar b c; some (b, ⟨[], n, b.cursize, left b⟩)
  | .write s1 s2 => do let (b, d, _) ← write b s1 s2; some (b, ⟨d, 0, b.cursize, left b⟩)

def run (b : GB) : List Op → Option (GB × List Obs)
  | [] => some (b, [])
  | op :: ops => do
    let (b, o) ← step b op
    let (b, os) ← run b ops
    some (b, o :: os)

end Gensio.Buffer
