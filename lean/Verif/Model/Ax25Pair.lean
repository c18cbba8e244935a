import Verif.Lemmas.Ax25Step

/-!
# Two AX.25 stations

A channel opened with `i_ax25_chan_open`, the channel made for its SABM or SABME at the other station, and the frames between
them.  Frames are lost at any moment, and are not changed, reordered or repeated.  No other station uses their addresses.
-/
namespace Gensio.Ax25

/-- A station: its channel, the frames it has sent that have not arrived, and two histories: the bytes taken by writes, and the bytes
taken by the read callback, each with the PID of its packet. -/
structure Side where
  c : Chan
  out : List Frame
  sent : List (UInt8 × UInt8)
  got : List (UInt8 × UInt8)

/-- An event of the station itself. -/
def own (s : Side) : Ev → Option Side
  | .rx _ => none
  | .write sg pid => (write s.c sg pid).map fun r => { s with c := r.1, sent := s.sent ++ (sg.flatten.take r.2.2).map (pid, ·) }
  | .tx r => (tx s.c r).map fun x => { s with c := x.1, out := s.out ++ x.2.toList }
  | .readRet r => (readRet s.c r).map fun x => { s with c := x.1, got := s.got ++ x.2 }
  | e => (step s.c e).map fun c => { s with c := c }

/-- A station before the other has answered. -/
inductive Alone (f : Conf) : Side → Prop
  | start : Alone f ⟨openChan (alloc f), [], [], []⟩
  | own {a a' : Side} (ev : Ev) : Alone f a → possible a.c ev = true → Benign a.c ev → own a ev = some a' → Alone f a'
  | lose {a : Side} (i : Nat) : Alone f a → Alone f { a with out := a.out.eraseIdx i }

/-- Two stations, in any order. -/
inductive Pair (f g : Conf) : Side → Side → Prop
  | accept {c L s t k pf ic body} : Alone f ⟨c, .unn k pf ic body :: L, s, t⟩ → k = .sabm ∨ k = .sabme →
      Pair f g ⟨c, L, s, t⟩ ⟨acceptChan g pf (k = .sabme) body, [], [], []⟩
  | swap {a b} : Pair f g a b → Pair f g b a
  | own {a a' b : Side} (ev : Ev) : Pair f g a b → possible a.c ev = true → Benign a.c ev → own a ev = some a' → Pair f g a' b
  | lose {a b : Side} (i : Nat) : Pair f g a b → Pair f g { a with out := a.out.eraseIdx i } b
  | recv {a b : Side} {fr L c'} : Pair f g a b → b.out = fr :: L → possible a.c (.rx fr) = true → rx a.c fr = some c' →
      Pair f g { a with c := c' } { b with out := L }

end Gensio.Ax25
