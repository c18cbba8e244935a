import Verif.Model.Mem
/-!
# Model of `lib/circbuf.c`

`gensiods` is modelled as `Nat` (no overflow of `size_t`: the sums formed are bounded by
twice the buffer size).  A failed `assert`, `% 0`, an out-of-bounds `memcpy` and a loop
that does not finish are the outcome `none`.
-/
namespace Gensio.CircBuf

/-- `struct gensio_circbuf`, lib/circbuf.c:13-19 (the os-funcs pointer is dropped). -/
structure CB where
  pos : Nat
  size : Nat
  bufsize : Nat
  cbuf : Mem
deriving DecidableEq, Repr

/-- `gensio_circbuf_alloc`, lib/circbuf.c:146-162 (allocation failure not modelled). -/
def alloc (n : Nat) : CB := { pos := 0, size := 0, bufsize := n, cbuf := List.replicate n 0 }

/-- `gensio_circbuf_room_left`, lib/circbuf.c:21-25. -/
def roomLeft (c : CB) : Nat := c.bufsize - c.size

/-- `gensio_circbuf_datalen`, lib/circbuf.c:78-82. -/
def datalen (c : CB) : Nat := c.size

/-- `gensio_circbuf_next_write_area`, lib/circbuf.c:27-43: (offset in `cbuf`, size). -/
def nextWriteArea (c : CB) : Option (Nat × Nat) :=
  if c.bufsize = 0 then none else
  let e := (c.pos + c.size) % c.bufsize
  if c.size = c.bufsize then some (e, 0)
  else if e ≥ c.pos then some (e, c.bufsize - e)
  else some (e, c.pos - e)

/-- `gensio_circbuf_data_added`, lib/circbuf.c:45-50. -/
def dataAdded (c : CB) (len : Nat) : Option CB :=
  if len + c.size ≤ c.bufsize then some { c with size := c.size + len } else none

/-- `gensio_circbuf_next_read_area`, lib/circbuf.c:52-68: (offset in `cbuf`, size). -/
def nextReadArea (c : CB) : Option (Nat × Nat) :=
  if c.bufsize = 0 then none else
  let e := (c.pos + c.size) % c.bufsize
  if c.size = 0 then some (c.pos, 0)
  else if e > c.pos then some (c.pos, c.size)
  else some (c.pos, c.bufsize - c.pos)

/-- `gensio_circbuf_data_removed`, lib/circbuf.c:70-76. -/
def dataRemoved (c : CB) (len : Nat) : Option CB :=
  if len ≤ c.size then
    if c.bufsize = 0 then none
    else some { c with size := c.size - len, pos := (c.pos + len) % c.bufsize }
  else none

/-- `gensio_circbuf_reset`, lib/circbuf.c:84-89. -/
def reset (c : CB) : CB := { c with pos := 0, size := 0 }

/-- The inner `while` of `gensio_circbuf_sg_write`, lib/circbuf.c:102-114.  `buf` is the
rest of the current scatter entry.  Result: new buffer and bytes copied. -/
def writeLoop : Nat → CB → List UInt8 → Nat → Option (CB × Nat)
  | 0, _, _, _ => none
  | fuel + 1, c, buf, count =>
    if roomLeft c ≠ 0 ∧ buf.length > 0 then do
      let (off, sz) ← nextWriteArea c
      let sz := if sz > buf.length then buf.length else sz
      let m ← c.cbuf.write off (buf.take sz)
      let c ← dataAdded { c with cbuf := m } sz
      writeLoop fuel c (buf.drop sz) (count + sz)
    else some (c, count)

/-- `gensio_circbuf_sg_write`, lib/circbuf.c:91-118.  The result number is `*rcount`. -/
def sgWrite : CB → List (List UInt8) → Nat → Option (CB × Nat)
  | c, [], count => some (c, count)
  | c, buf :: sg, count =>
    if roomLeft c > 0 then do
      let (c, count) ← writeLoop (buf.length + 1) c buf count
      sgWrite c sg count
    else some (c, count)

/-- The loop of `gensio_circbuf_read`, lib/circbuf.c:127-141.  `out` is what has been
stored in the destination (when there is one). -/
def readLoop : Nat → CB → Nat → List UInt8 → Nat → Option (CB × List UInt8 × Nat)
  | 0, _, _, _, _ => none
  | fuel + 1, c, buflen, out, count =>
    if buflen > 0 ∧ datalen c ≠ 0 then do
      let (off, sz) ← nextReadArea c
      let sz := if sz > buflen then buflen else sz
      let d ← c.cbuf.read off sz
      let c ← dataRemoved c sz
      readLoop fuel c (buflen - sz) (out ++ d) (count + sz)
    else some (c, out, count)

/-- `gensio_circbuf_read`, lib/circbuf.c:120-144.  With `dst = false` the destination
pointer is NULL and nothing is stored (we drop the collected bytes). -/
def read (c : CB) (dst : Bool) (buflen : Nat) : Option (CB × List UInt8 × Nat) := do
  let (c, out, count) ← readLoop (buflen + 1) c buflen [] 0
  some (c, if dst then out else [], count)

/-- Operations of a user of the buffer.  `zwrite d`: ask for the write area, store as much
of `d` as fits there, report it with data_added (the way
lib/os_win.c uses it).  `zread n`: ask for the read area, look at up to `n` bytes of it and
report them with data_removed. -/
inductive Op where
  | sgWrite (sg : List (List UInt8))
  | read (dst : Bool) (n : Nat)
  | zwrite (d : List UInt8)
  | zread (n : Nat)
  | reset
deriving Repr

/-- What the user observes of an operation: bytes obtained, count reported, and then the
values of `room_left` and `datalen` after the operation. -/
structure Obs where
  data : List UInt8
  count : Nat
  room : Nat
  len : Nat
deriving DecidableEq, Repr

/-- One user operation on the model; `none` is undefined behaviour / assertion failure /
non-termination. -/
def step (c : CB) : Op → Option (CB × Obs)
  | .sgWrite sg => do
    let (c, n) ← sgWrite c sg 0
    some (c, ⟨[], n, roomLeft c, datalen c⟩)
  | .read dst n => do
    let (c, d, k) ← read c dst n
    some (c, ⟨d, k, roomLeft c, datalen c⟩)
  | .zwrite d => do
    let (off, sz) ← nextWriteArea c
    let m ← c.cbuf.write off (d.take sz)
    let c ← dataAdded { c with cbuf := m } (d.take sz).length
    some (c, ⟨[], (d.take sz).length, roomLeft c, datalen c⟩)
  | .zread n => do
    let (off, sz) ← nextReadArea c
    let d ← c.cbuf.read off (min n sz)
    let c ← dataRemoved c (min n sz)
    some (c, ⟨d, min n sz, roomLeft c, datalen c⟩)
  | .reset => let c := reset c; some (c, ⟨[], 0, roomLeft c, datalen c⟩)

/-- A whole history of operations with the observations made. -/
def run (c : CB) : List Op → Option (CB × List Obs)
  | [] => some (c, [])
  | op :: ops => do
    let (c, o) ← step c op
    let (c, os) ← run c ops
    some (c, o :: os)

end Gensio.CircBuf
