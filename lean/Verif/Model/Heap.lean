/-!
# The heap of `lib/heap.h`

A binary heap made of nodes with pointers to the children and to the parent.  `lib/os_unix_selector.c:161-193` and
`lib/os_win.c:181-198` include it for their timers.

Simplifications:
* Pointers are natural numbers and `NULL` is `none`; following `NULL` is undefined and makes the result `none`.
* The memory is kept as one function per field (`left`, `right`, `up`, `val`) instead of one record per pointer.
* A `while` loop gets a number of rounds, `fuel`; running out of rounds makes the result `none`.  The theorems show that as
  many rounds as there are entries are enough.
* `heap_cmp_key` is a parameter `cmp`; the two functions used for it are `cmpTimeval` and `cmpEnd`.
* The checks under `HEAP_DEBUG` and `HEAP_MASSIVE_DEBUG`, :92-227, are not modelled.
-/

namespace Gensio.Heap

/-- `cmp_timeval`, `lib/os_unix_selector.c:169-185`, for a time `(sec, usec)`. -/
def cmpTimeval (a b : Int × Int) : Int :=
  if a.1 < b.1 then -1 else if a.1 > b.1 then 1 else if a.2 < b.2 then -1 else if a.2 > b.2 then 1 else 0

/-- `heap_cmp_key` of `lib/os_win.c:188-196`; `end_time` is a `ULONGLONG`. -/
def cmpEnd (a b : Nat) : Int := if a < b then -1 else if a > b then 1 else 0

/-- `struct heap_s`, :81-84, with the memory of the nodes, :73-79. -/
structure Heap (V : Type) where
  val : Nat → V
  left : Nat → Option Nat
  right : Nat → Option Nat
  up : Nat → Option Nat
  top : Option Nat
  last : Option Nat

variable {V : Type}

/-- Storing into a field of a node. -/
def upd {α : Type} (f : Nat → α) (p : Nat) (v : α) : Nat → α := fun q => if q = p then v else f q

def Heap.setLeft (h : Heap V) (p : Nat) (v : Option Nat) : Heap V := { h with left := upd h.left p v }
def Heap.setRight (h : Heap V) (p : Nat) (v : Option Nat) : Heap V := { h with right := upd h.right p v }
def Heap.setUp (h : Heap V) (p : Nat) (v : Option Nat) : Heap V := { h with up := upd h.up p v }

/-- `if (o) o->up = v`. -/
def Heap.setUpOf (h : Heap V) (o : Option Nat) (v : Nat) : Heap V :=
  match o with
  | none => h
  | some p => h.setUp p (some v)

/-- The links of the parent `up` of `old` are changed to `new`: `if (up->left == old) up->left = new; else up->right = new`,
or the top if there is no parent, e.g. :317-325. -/
def Heap.relink (h : Heap V) (up : Option Nat) (old new : Nat) : Heap V :=
  match up with
  | some g => if h.left g = some old then h.setLeft g (some new) else h.setRight g (some new)
  | none => { h with top := some new }

/-- `if (*last == old) *last = new`. -/
def Heap.moveLast (h : Heap V) (old new : Nat) : Heap V := if h.last = some old then { h with last := some new } else h

/-- The loop of :244-247: while a right node, go up. -/
def Heap.climbRight (h : Heap V) : Nat → Nat → Nat → Option (Nat × Nat)
  | 0, _, _ => none
  | fuel + 1, curr, upcount =>
    match h.up curr with
    | some p => if h.right p = some curr then h.climbRight fuel p (upcount + 1) else some (curr, upcount)
    | none => some (curr, upcount)

/-- The loop of :274-277: while a left node, go up. -/
def Heap.climbLeft (h : Heap V) : Nat → Nat → Nat → Option (Nat × Nat)
  | 0, _, _ => none
  | fuel + 1, curr, upcount =>
    match h.up curr with
    | some p => if h.left p = some curr then h.climbLeft fuel p (upcount + 1) else some (curr, upcount)
    | none => some (curr, upcount)

/-- The loop of :254-257. -/
def Heap.downLeft (h : Heap V) : Nat → Nat → Option Nat
  | 0, curr => some curr
  | upcount + 1, curr =>
    match h.left curr with
    | none => none
    | some c => h.downLeft upcount c

/-- The loop of :286-289. -/
def Heap.downRight (h : Heap V) : Nat → Nat → Option Nat
  | 0, curr => some curr
  | upcount + 1, curr =>
    match h.right curr with
    | none => none
    | some c => h.downRight upcount c

/-- `find_next_pos`, :229-260: the parent and whether the place is its right link.  `upcount` is unsigned; lowering it
below zero would make the last loop run into `NULL`. -/
def Heap.findNextPos (h : Heap V) (fuel : Nat) (curr : Nat) : Option (Nat × Bool) :=
  let rest : Option (Nat × Bool) :=
    match h.climbRight fuel curr 0 with
    | none => none
    | some (c, n) =>
      match h.up c with
      | some p =>
        match h.right p with
        | none => none
        | some r => if n = 0 then none else (h.downLeft (n - 1) r).map (·, false)
      | none => (h.downLeft n c).map (·, false)
  match h.up curr with
  | some p => if h.left p = some curr then some (p, true) else rest
  | none => rest

/-- `find_prev_elem`, :262-291. -/
def Heap.findPrev (h : Heap V) (fuel : Nat) (curr : Nat) : Option Nat :=
  let rest : Option Nat :=
    match h.climbLeft fuel curr 0 with
    | none => none
    | some (c, n) =>
      match h.up c with
      | some p =>
        match h.left p with
        | none => none
        | some l => h.downRight n l
      | none => if n = 0 then none else h.downRight (n - 1) c
  match h.up curr with
  | some p => if h.right p = some curr then h.left p else rest
  | none => rest

/-- One round of the loop of `send_up`, :302-336. -/
def Heap.swapUp (h : Heap V) (elem parent : Nat) : Heap V :=
  let tmp1 := h.left elem
  let tmp2 := h.right elem
  let h :=
    if h.left parent = some elem then
      let h := (h.setLeft elem (some parent)).setRight elem (h.right parent)
      h.setUpOf (h.right elem) elem
    else
      let h := (h.setRight elem (some parent)).setLeft elem (h.left parent)
      h.setUpOf (h.left elem) elem
  let h := h.setUp elem (h.up parent)
  let h := h.relink (h.up parent) parent elem
  let h := h.setUp parent (some elem)
  let h := h.setLeft parent tmp1
  let h := h.setUpOf (h.left parent) parent
  let h := h.setRight parent tmp2
  let h := h.setUpOf (h.right parent) parent
  h.moveLast elem parent

/-- `send_up`, :293-340. -/
def Heap.sendUp (cmp : V → V → Int) (h : Heap V) : Nat → Nat → Option (Heap V)
  | 0, _ => none
  | fuel + 1, elem =>
    match h.up elem with
    | none => some h
    | some parent =>
      if cmp (h.val elem) (h.val parent) < 0 then (h.swapUp elem parent).sendUp cmp fuel elem else some h

/-- Swapping with the right element, :357-383. -/
def Heap.swapRight (h : Heap V) (elem right : Nat) : Heap V :=
  let tmp1 := h.left right
  let tmp2 := h.right right
  let h := h.relink (h.up elem) elem right
  let h := h.setUp right (h.up elem)
  let h := h.setUp elem (some right)
  let h := h.setLeft right (h.left elem)
  let h := h.setRight right (some elem)
  let h := h.setLeft elem tmp1
  let h := h.setRight elem tmp2
  let h := h.setUpOf (h.left right) right
  let h := h.setUpOf (h.left elem) elem
  let h := h.setUpOf (h.right elem) elem
  h.moveLast right elem

/-- Swapping with the left element, :390-416. -/
def Heap.swapLeft (h : Heap V) (elem left : Nat) : Heap V :=
  let tmp1 := h.left left
  let tmp2 := h.right left
  let h := h.relink (h.up elem) elem left
  let h := h.setUp left (h.up elem)
  let h := h.setUp elem (some left)
  let h := h.setLeft left (some elem)
  let h := h.setRight left (h.right elem)
  let h := h.setLeft elem tmp1
  let h := h.setRight elem tmp2
  let h := h.setUpOf (h.right left) left
  let h := h.setUpOf (h.left elem) elem
  let h := h.setUpOf (h.right elem) elem
  h.moveLast left elem

/-- `send_down`, :342-424. -/
def Heap.sendDown (cmp : V → V → Int) (h : Heap V) : Nat → Nat → Option (Heap V)
  | 0, _ => none
  | fuel + 1, elem =>
    match h.left elem with
    | none => some h
    | some left =>
      let goLeft : Option (Heap V) :=
        if cmp (h.val elem) (h.val left) > 0 then (h.swapLeft elem left).sendDown cmp fuel elem else some h
      match h.right elem with
      | none => goLeft
      | some right =>
        if cmp (h.val left) (h.val right) > 0 then
          if cmp (h.val elem) (h.val right) > 0 then (h.swapRight elem right).sendDown cmp fuel elem else some h
        else goLeft

/-- `add`, :426-465. -/
def Heap.add (cmp : V → V → Int) (h : Heap V) (fuel : Nat) (elem : Nat) : Option (Heap V) :=
  let h := ((h.setLeft elem none).setRight elem none).setUp elem none
  match h.top with
  | none => some { h with top := some elem, last := some elem }
  | some _ =>
    match h.last with
    | none => none
    | some last =>
      match h.findNextPos fuel last with
      | none => none
      | some (parent, isRight) =>
        let h := if isRight then h.setRight parent (some elem) else h.setLeft parent (some elem)
        let h := h.setUp elem (some parent)
        let h := { h with last := some elem }
        if cmp (h.val elem) (h.val parent) < 0 then h.sendUp cmp fuel elem else some h

/-- `to_insert` takes the place of `elem`, :504-526. -/
def Heap.takePlace (h : Heap V) (elem toInsert : Nat) : Heap V :=
  let h := h.relink (h.up elem) elem toInsert
  let h := h.setUp toInsert (h.up elem)
  let h := h.setUpOf (h.left elem) toInsert
  let h := h.setUpOf (h.right elem) toInsert
  let h := h.setLeft toInsert (h.left elem)
  let h := h.setRight toInsert (h.right elem)
  h.moveLast elem toInsert

/-- The part of `remove` after the last node `to_insert` has been cut off, :504-534. -/
def Heap.replace (cmp : V → V → Int) (h : Heap V) (fuel : Nat) (elem toInsert : Nat) : Option (Heap V) :=
  let h := h.takePlace elem toInsert
  match h.up toInsert with
  | some p =>
    if cmp (h.val toInsert) (h.val p) < 0 then h.sendUp cmp fuel toInsert else h.sendDown cmp fuel toInsert
  | none => h.sendDown cmp fuel toInsert

/-- `remove`, :467-543. -/
def Heap.remove (cmp : V → V → Int) (h : Heap V) (fuel : Nat) (elem : Nat) : Option (Heap V) :=
  match h.last with
  | none => none
  | some toInsert =>
    match h.up toInsert with
    | none => some { h with top := none, last := none }
    | some p =>
      match h.findPrev fuel toInsert with
      | none => none
      | some prev =>
        let h := { h with last := some prev }
        let h := if h.left p = some toInsert then h.setLeft p none else h.setRight p none
        if elem = toInsert then some h else h.replace cmp fuel elem toInsert

/-- `init`, :551-556, for nodes with any contents. -/
def Heap.init (val : Nat → V) (left right up : Nat → Option Nat) : Heap V :=
  { val := val, left := left, right := right, up := up, top := none, last := none }

/-- What a program does with a heap: a node gets a key, is added, or is removed. -/
inductive Op (V : Type)
  | key (p : Nat) (v : V)
  | add (p : Nat)
  | remove (p : Nat)

def Heap.step (cmp : V → V → Int) (h : Heap V) (fuel : Nat) : Op V → Option (Heap V)
  | .key p v => some { h with val := upd h.val p v }
  | .add p => h.add cmp fuel p
  | .remove p => h.remove cmp fuel p

def Heap.run (cmp : V → V → Int) (h : Heap V) (fuel : Nat) : List (Op V) → Option (Heap V)
  | [] => some h
  | op :: ops =>
    match h.step cmp fuel op with
    | none => none
    | some h => h.run cmp fuel ops

end Gensio.Heap
