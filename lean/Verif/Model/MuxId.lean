/-!
# Channel numbers of a mux

Model of the choice of channel numbers in lib/gensio_mux.c: `next_chan_id` and the part of `mux_new_channel` that puts a
new channel into the list of channels.

Simplifications: the list of channels is the list of their numbers in the order of the links; allocations succeed; the
number of channels allowed is at least one (checked at :1530).
-/

namespace Gensio.MuxId

/-- `next_chan_id`, lib/gensio_mux.c:1363-1370, for `max` channels. -/
def nextId (max num : Nat) : Nat := if num ≥ max - 1 then 0 else num + 1

/-- The place at or before which the last number is, :1427-1434: how many channels are in front of `p` and `p` itself. -/
def place (last : Nat) (chans : List Nat) : Nat := (chans.takeWhile (fun c => decide (c ≤ last))).length

/-- The loop of :1439-1449, with `n` iterations left.  `l` is the index of the channel looked at, `p` the index a new
channel would get. -/
def search (max : Nat) (chans : List Nat) : Nat → Nat → Nat → Nat → Option (Nat × Nat)
  | 0, id, l, p => if id ≠ chans.getD l 0 then some (id, p) else none
  | n + 1, id, l, p =>
    if id ≠ chans.getD l 0 then some (id, p)
    else search max chans n (nextId max id) ((l + 1) % chans.length) (l + 1)

/-- The channels of a mux and the last number given out (`last_id`). -/
structure Ids where
  last : Nat
  chans : List Nat
deriving Repr, DecidableEq

/-- The part of `mux_new_channel` that chooses a number, :1419-1463; `none` is the error `GE_INUSE`. -/
def Ids.new (m : Ids) (max : Nat) : Option (Nat × Ids) :=
  match m.chans with
  | [] => some (0, ⟨m.last, [0]⟩)
  | _ :: _ =>
    let k := place m.last m.chans
    match search max m.chans m.chans.length (nextId max m.last) (k % m.chans.length) k with
    | none => none
    | some (id, p) => some (id, ⟨id, m.chans.take p ++ id :: m.chans.drop p⟩)

/-- Taking a channel out of the list, `chan_deref` :668-700 with `gensio_list_rm`. -/
def Ids.remove (m : Ids) (i : Nat) : Ids := ⟨m.last, m.chans.eraseIdx i⟩

/-- A history of a mux: new channels, and channels removed by their place in the list.  New channels that are refused
change nothing. -/
inductive Op
  | new | remove (i : Nat)
deriving Repr, DecidableEq

def Ids.step (m : Ids) (max : Nat) : Op → Ids
  | .new =>
    match m.new max with
    | none => m
    | some (_, m) => m
  | .remove i => m.remove i

def Ids.run (m : Ids) (max : Nat) (ops : List Op) : Ids := ops.foldl (fun m op => m.step max op) m

end Gensio.MuxId
