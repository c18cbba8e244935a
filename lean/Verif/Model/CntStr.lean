/-!
# Model of counted strings, lib/utils.c:1215-1304, over gensio_refcount.h

The memory maps addresses to live objects.  The allocator may hand out any address that
is not live (so addresses are reused).  Access to memory that is not live and a failed
assertion are `none`.  The counter is a C `unsigned int` (it wraps at 2^32).
-/
namespace Gensio.CntStr

/-- `struct gensio_cntstr`, lib/utils.c:1215-1218; the content is placed behind the
structure in the same allocation, a NULL `str` is `none`. -/
structure Obj where
  refcount : Nat
  str : Option (List UInt8)
deriving DecidableEq, Repr

abbrev Heap := Nat → Option Obj

/-- `gensio_refcount_inc`, gensio_refcount.h:38-44 (`gensio_atomic_inc_if_nz`, assert). -/
def refInc (c : Nat) : Option Nat := if c = 0 then none else some ((c + 1) % 2 ^ 32)
/-- `gensio_refcount_dec`, gensio_refcount.h:50-57. -/
def refDec (c : Nat) : Option Nat := if c = 0 then none else some (c - 1)

/-- `gensio_cntstr_make`, lib/utils.c:1220-1242, the allocator answering `a` (which
must not be live; `none` otherwise). -/
def make (h : Heap) (a : Nat) (s : Option (List UInt8)) : Option Heap :=
  match h a with
  | some _ => none
  | none => some fun x => if x = a then some ⟨1, s⟩ else h x

/-- `gensio_cntstr_ref`, lib/utils.c:1244-1249. -/
def ref (h : Heap) (a : Nat) : Option Heap := do
  let o ← h a
  let c ← refInc o.refcount
  some fun x => if x = a then some { o with refcount := c } else h x

/-- `gensio_cntstr_free`, lib/utils.c:1251-1260. -/
def free (h : Heap) (a : Nat) : Option Heap := do
  let o ← h a
  let c ← refDec o.refcount
  if c = 0 then some fun x => if x = a then none else h x
  else some fun x => if x = a then some { o with refcount := c } else h x

/-- `gensio_cntstr_get`, lib/utils.c:1300-1304; outer `none` is an access to freed memory. -/
def get (h : Heap) (a : Nat) : Option (Option (List UInt8)) := (h a).map (·.str)

/-- Operations by numbered holders.  `who` is used by the specification only. -/
inductive Op where
  | make (who a : Nat) (s : Option (List UInt8))
  | ref (who a : Nat)
  | free (who a : Nat)
deriving Repr

def step (h : Heap) : Op → Option Heap
  | .make _ a s => make h a s
  | .ref _ a => ref h a
  | .free _ a => free h a

def run (h : Heap) : List Op → Option Heap
  | [] => some h
  | op :: ops => do
    let h ← step h op
    run h ops

end Gensio.CntStr
