/-!
# Checked memory

Flat byte memory used by the models of C buffers.  An access outside the allocated
object (undefined behaviour in C) is the distinct outcome `none`.
-/
namespace Gensio

/-- Allocated object: its bytes.  Models a C object of `length` bytes. -/
abbrev Mem := List UInt8

/-- `memcpy(dst, m + off, n)`: read `n` bytes, `none` if any byte lies outside `m`. -/
def Mem.read (m : Mem) (off n : Nat) : Option (List UInt8) :=
  if off + n ≤ m.length then some ((m.drop off).take n) else none

/-- `memcpy(m + off, d, len d)`: overwrite, `none` if any byte lies outside `m`. -/
def Mem.write (m : Mem) (off : Nat) (d : List UInt8) : Option Mem :=
  if off + d.length ≤ m.length then
    some (m.take off ++ d ++ m.drop (off + d.length))
  else none

end Gensio
