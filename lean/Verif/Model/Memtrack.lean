/-!
# The memory checker (`lib/os_osops.c:3914-4150`)

With `GENSIO_MEMTRACK` set, every block has filler before and behind it, which
is checked when it is freed; freed blocks are kept, and blocks that were never
freed are reported at the end.

Simplifications: a block is its number; its memory is a function of the offset,
with the filler at the 32 bytes before and behind it.  Where a block was
allocated and freed is left out, as is the abort after a message.  Writes
further away from a block than the filler may hit anything and are `none`.
-/

namespace Gensio.Memtrack

/-- `MEM_BUFFER` (`os_osops.c:3915`). -/
def buffer : Nat := 32

/-- A block with `struct mem_header` (`os_osops.c:3916-3924`). -/
structure Block where
  /-- The size asked for. -/
  size : Nat := 0
  /-- The bytes, the fillers included. -/
  mem : Int → UInt8 := fun _ => 0
  /-- `freed`. -/
  freed : Bool := false

/-- `struct gensio_memtrack` (`os_osops.c:3926-3932`), and the blocks. -/
structure S where
  /-- `check_on_all`. -/
  all : Bool
  /-- The number of the next block. -/
  n : Nat := 0
  blk : Nat → Block := fun _ => {}
  /-- `alloced`. -/
  alloced : List Nat := []
  /-- `freed`. -/
  freedL : List Nat := []

/-- What is seen. -/
inductive Out where
  | doubleFree (k : Nat)
  | freeInAllocated (k : Nat)
  | underrun (k : Nat)
  | overrun (k : Nat)
  | lost (k : Nat)
  /-- The block goes to the list of freed blocks (not a message). -/
  | gone (k : Nat)
deriving DecidableEq, Repr

/-- `mem_check` (`os_osops.c:3944-3954`), of the bytes from an offset. -/
def filled (b : Block) (start : Int) : Bool := (List.range buffer).all fun i => b.mem (start + i) == 0xfd

/-- How a check ended. -/
inductive Chk where
  | fine
  | msg (o : Out)
  /-- Memory is read that is not the block's. -/
  | wild
deriving DecidableEq, Repr

/-- `check_mem` (`os_osops.c:3968-3997`); `size` is an `int32_t`, so that the
filler of a larger block is looked for in front of it. -/
def check (k : Nat) (b : Block) (freed : Bool) : Chk :=
  if b.freed ≠ freed then .msg (if freed then .freeInAllocated k else .doubleFree k)
  else if filled b (-buffer) = false then .msg (.underrun k)
  else if 2 ^ 31 ≤ b.size then .wild
  else if filled b b.size = false then .msg (.overrun k)
  else .fine

/-- The checks of many blocks. -/
def checks (blk : Nat → Block) (freed : Bool) : List Nat → Option (List Out)
  | [] => some []
  | k :: ks =>
    match check k (blk k) freed with
    | .wild => none
    | .fine => checks blk freed ks
    | .msg o =>
      match checks blk freed ks with
      | none => none
      | some os => some (o :: os)

/-- What happens. -/
inductive Ev where
  /-- `gensio_i_zalloc` (`os_osops.c:4047-4085`). -/
  | alloc (size : Nat)
  /-- The program writes a byte, at an offset from a block. -/
  | write (k : Nat) (off : Int) (v : UInt8)
  /-- `gensio_i_free` (`os_osops.c:4087-4148`). -/
  | free (k : Nat)
  /-- `gensio_memtrack_cleanup` (`os_osops.c:4024-4045`). -/
  | cleanup
deriving DecidableEq, Repr

/-- A new block (`os_osops.c:4057-4083`). -/
def fresh (size : Nat) : Block :=
  { size := size, mem := fun off => if 0 ≤ off ∧ off < size then 0 else 0xfd }

/-- One block changed. -/
def setBlk (f : Nat → Block) (k : Nat) (b : Block) : Nat → Block := fun j => if j = k then b else f j

/-- One step; `none` is a use of memory that is none of the blocks. -/
def S.step (s : S) : Ev → Option (S × List Out)
  | .alloc size => some ({ s with n := s.n + 1, blk := setBlk s.blk s.n (fresh size), alloced := s.alloced ++ [s.n] }, [])
  | .write k off v =>
    if s.n ≤ k ∨ off < -buffer ∨ (s.blk k).size + buffer ≤ off then none
    else
      let b := s.blk k
      some ({ s with blk := setBlk s.blk k { b with mem := fun o => if o = off then v else b.mem o } }, [])
  | .free k =>
    if s.n ≤ k then none
    else
      match check k (s.blk k) false with
      | .wild => none
      | .msg o => some (s, [o])
      | .fine =>
        let rest := s.alloced.erase k
        let t : S := { s with alloced := rest, freedL := s.freedL ++ [k], blk := setBlk s.blk k { s.blk k with freed := true } }
        if s.all then
          match checks s.blk false rest with
          | none => none
          | some o1 =>
            match checks s.blk true s.freedL with
            | none => none
            | some o2 => some (t, o1 ++ o2 ++ [.gone k])
        else some (t, [.gone k])
  | .cleanup => some (s, s.alloced.map .lost)

/-- Many steps. -/
def S.steps (s : S) : List Ev → Option (S × List Out)
  | [] => some (s, [])
  | e :: es =>
    match s.step e with
    | none => none
    | some (s1, o) =>
      match s1.steps es with
      | none => none
      | some (s2, o2) => some (s2, o ++ o2)

end Gensio.Memtrack
