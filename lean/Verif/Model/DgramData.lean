/-!
# The data and the controls of datagram gensios, `lib/gensio_dgram.c`

What a datagram looks like to the user (`udpn_finish_read`), and the controls that set values of the socket (`udpn_control`).

Simplifications:
* The user answers each read callback; the state of the connection when the callback returns is part of the answer.
* Characters are the bytes of a string; `strncasecmp` folds ASCII letters only.
* The socket keeps the value that was set last.
-/
namespace Gensio.DgramData

/-- The answer to a read callback: how many bytes were taken, and whether the connection is still open with reading enabled (`goto retry`). -/
structure Ans where
  count : Nat
  again : Bool
deriving Repr, DecidableEq

/-- A read callback: the data and how many of the pointers of `auxmem` are set. -/
structure Call where
  data : List UInt8
  aux : Nat
deriving Repr, DecidableEq

/-- `udpn_finish_read`, lib/gensio_dgram.c:624-713: the calls for the answers.  `n` is how many strings of auxiliary data there are (:644-683), `pend` is
`data_pending_len` and `auxi` is kept over the label `retry`.  `data_pos` (:702) is not used by the callback, which is given `read_data` (:687).  `none` is
a write after the end of `auxmem[4]`. -/
def finishRead (data : List UInt8) (n : Nat) : (pend auxi : Nat) → List Ans → Option (List Call)
  | _, _, [] => some []
  | pend, auxi, a :: as =>
    if auxi + n > 4 then none
    else
      let call : Call := { data := data.take pend, aux := auxi + n }
      if a.count < pend ∧ a.again then (finishRead data n (pend - a.count) (auxi + n) as).map (call :: ·)
      else some [call]

/-- The calls for a datagram, which begin with `auxi = 0` and all of it pending. -/
def calls (data : List UInt8) (n : Nat) (as : List Ans) : Option (List Call) := finishRead data n data.length 0 as

/-- What the user took: of each call the bytes that it said. -/
def taken (cs : List Call) (as : List Ans) : List UInt8 := (cs.zip as).flatMap fun p => p.1.data.take p.2.count

/-- `tolower` of an ASCII character. -/
def lower (c : Char) : Char := if 'A' ≤ c ∧ c ≤ 'Z' then Char.ofNat (c.toNat + 32) else c

/-- Whether `strncasecmp` is 0. -/
def ncaseEq : Nat → List Char → List Char → Bool
  | 0, _, _ => true
  | _ + 1, [], [] => true
  | n + 1, a :: as, b :: bs => lower a = lower b && ncaseEq n as bs
  | _ + 1, _, _ => false

/-- A set of `GENSIO_CONTROL_MCAST_LOOP`, :1196-:1204: the value that is given to the socket, or `GE_INVAL`. -/
def setLoop (data : List Char) (len : Nat) : Option Bool :=
  if !ncaseEq len data "true".toList then some true
  else if !ncaseEq len data "false".toList then some false
  else none

/-- A get of `GENSIO_CONTROL_MCAST_TTL`, :1216-:1221, which calls `GENSIO_SOCKCTL_SET_MCAST_TTL` with the variable `ttl` that has no value yet (`junk`).
The result is the value that is printed and the value of the socket. -/
def getTtl (junk _sock : Nat) : Nat × Nat := (junk, junk)

/-- A set of `GENSIO_CONTROL_MCAST_TTL`, :1222-:1226. -/
def setTtl (v _sock : Nat) : Nat := v

/-- The extra information: which connections have it, the count of the accepter, and whether the socket has it. -/
structure X where
  on : List Bool
  cnt : Nat
  sock : Bool
  locked : Bool
deriving Repr, DecidableEq

/-- A set of `GENSIO_CONTROL_EXTRAINFO`, :1241-:1259.  `fail` is an error of the socket, which returns with the lock held.  The result 0 is `true`. -/
def setExtra (s : X) (i : Nat) (val fail : Bool) : X × Bool :=
  if (s.on[i]?).getD false ≠ val then
    if (val ∧ s.cnt = 0) ∨ (!val ∧ s.cnt = 1) then
      if fail then ({ s with locked := true }, false)
      else ({ s with on := s.on.set i val, cnt := if val then s.cnt + 1 else s.cnt - 1, sock := val }, true)
    else (s, true)
  else (s, true)

/-- Sets one after the other. -/
def setExtras (s : X) : List (Nat × Bool × Bool) → X
  | [] => s
  | (i, v, f) :: l => setExtras (setExtra s i v f).1 l

/-- The checks of `udpna_str_to_gensio`, :1722-:1729: whether a string is taken on.  The statement of `if (… && !is_port_set)` is missing, so that the
next `if` is it. -/
def strOk (udp portSet args : Bool) : Bool :=
  if udp && !portSet then !args else true

end Gensio.DgramData
