/-!
# Model of the intrusive doubly linked list, lib/utils.c:1094-1163 and
include/gensio/gensio_list.h

Any number of lists and links live in one memory.  A `Ptr` is the address of the link
embedded in a list head or of a free-standing link.  Following a NULL pointer and a
failed `assert` are the outcome `none`.
-/
namespace Gensio.LList

/-- Address of a `struct gensio_link`: the head link of list `l`, or link number `n`. -/
inductive Ptr where
  | head (l : Nat)
  | node (n : Nat)
deriving DecidableEq, Repr

/-- All `struct gensio_link`s, include/gensio/gensio_list.h:20-24, field by field. -/
structure Mem where
  list : Ptr → Option Nat
  next : Ptr → Option Ptr
  prev : Ptr → Option Ptr

/-- Function update (a store to a field). -/
def upd {α : Type} (f : Ptr → α) (p : Ptr) (v : α) : Ptr → α := fun x => if x = p then v else f x

/-- Memory in which every list went through `gensio_list_init`, lib/utils.c:1151-1157,
and every link through `gensio_list_link_init`, gensio_list.h:69-74. -/
def init : Mem where
  list p := match p with | .head l => some l | .node _ => none
  next p := match p with | .head l => some (.head l) | .node _ => none
  prev p := match p with | .head l => some (.head l) | .node _ => none

/-- The assertion of the adding functions: the link is in no list. -/
def isFree (m : Mem) (n : Nat) : Bool :=
  m.list (.node n) = none && m.next (.node n) = none && m.prev (.node n) = none

/-- `gensio_list_rm`, lib/utils.c:1094-1103. -/
def rm (m : Mem) (l n : Nat) : Option Mem :=
  let link := Ptr.node n
  if m.list link = some l then do
    let nx ← m.next link
    let m := { m with prev := upd m.prev nx (m.prev link) }
    let pv ← m.prev link
    let m := { m with next := upd m.next pv (m.next link) }
    let m := { m with next := upd m.next link none }
    let m := { m with prev := upd m.prev link none }
    some { m with list := upd m.list link none }
  else none

/-- `gensio_list_add_head`, lib/utils.c:1105-1114. -/
def addHead (m : Mem) (l n : Nat) : Option Mem :=
  let link := Ptr.node n
  let lh := Ptr.head l
  if isFree m n then do
    let m := { m with next := upd m.next link (m.next lh) }
    let m := { m with prev := upd m.prev link (some lh) }
    let ln ← m.next lh
    let m := { m with prev := upd m.prev ln (some link) }
    let m := { m with next := upd m.next lh (some link) }
    some { m with list := upd m.list link (some l) }
  else none

/-- `gensio_list_add_tail`, lib/utils.c:1116-1125. -/
def addTail (m : Mem) (l n : Nat) : Option Mem :=
  let link := Ptr.node n
  let lh := Ptr.head l
  if isFree m n then do
    let m := { m with prev := upd m.prev link (m.prev lh) }
    let m := { m with next := upd m.next link (some lh) }
    let lp ← m.prev lh
    let m := { m with next := upd m.next lp (some link) }
    let m := { m with prev := upd m.prev lh (some link) }
    some { m with list := upd m.list link (some l) }
  else none

/-- `gensio_list_add_next`, lib/utils.c:1127-1137. -/
def addNext (m : Mem) (l c n : Nat) : Option Mem :=
  let link := Ptr.node n
  let curr := Ptr.node c
  if isFree m n then do
    let m := { m with next := upd m.next link (m.next curr) }
    let m := { m with prev := upd m.prev link (some curr) }
    let cn ← m.next curr
    let m := { m with prev := upd m.prev cn (some link) }
    let m := { m with next := upd m.next curr (some link) }
    some { m with list := upd m.list link (some l) }
  else none

/-- `gensio_list_add_prev`, lib/utils.c:1139-1149. -/
def addPrev (m : Mem) (l c n : Nat) : Option Mem :=
  let link := Ptr.node n
  let curr := Ptr.node c
  if isFree m n then do
    let m := { m with prev := upd m.prev link (m.prev curr) }
    let m := { m with next := upd m.next link (some curr) }
    let cp ← m.prev curr
    let m := { m with next := upd m.next cp (some link) }
    let m := { m with prev := upd m.prev curr (some link) }
    some { m with list := upd m.list link (some l) }
  else none

/-- `gensio_list_empty`, lib/utils.c:1159-1163. -/
def isEmpty (m : Mem) (l : Nat) : Bool := m.next (.head l) = some (.head l)

/-- `gensio_list_for_each`, gensio_list.h:56-57: the links visited; `none` for a NULL
pointer, a foreign list head or an endless walk (`fuel` used up). -/
def walk (nx : Ptr → Option Ptr) (l : Nat) : Nat → Option Ptr → Option (List Nat)
  | 0, _ => none
  | _ + 1, none => none
  | _ + 1, some (.head k) => if k = l then some [] else none
  | fuel + 1, some (.node n) => do
    let r ← walk nx l fuel (nx (.node n))
    some (n :: r)

/-- Walk forward over list `l`. -/
def forward (m : Mem) (l fuel : Nat) : Option (List Nat) := walk m.next l fuel (m.next (.head l))
/-- Walk backward over list `l` (following `prev`). -/
def backward (m : Mem) (l fuel : Nat) : Option (List Nat) := walk m.prev l fuel (m.prev (.head l))

/-- Operations on a world of lists. -/
inductive Op where
  | rm (l n : Nat)
  | addHead (l n : Nat)
  | addTail (l n : Nat)
  | addNext (l c n : Nat)
  | addPrev (l c n : Nat)
deriving Repr

def step (m : Mem) : Op → Option Mem
  | .rm l n => rm m l n
  | .addHead l n => addHead m l n
  | .addTail l n => addTail m l n
  | .addNext l c n => addNext m l c n
  | .addPrev l c n => addPrev m l c n

def run (m : Mem) : List Op → Option Mem
  | [] => some m
  | op :: ops => do
    let m ← step m op
    run m ops

end Gensio.LList
