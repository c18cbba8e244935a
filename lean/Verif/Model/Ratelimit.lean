/-!
# Model of lib/gensio_ratelimit.c

Writes are atomic: `basen_write` (lib/gensio_base.c:699-762) holds its lock around the filter
call.  The read direction passes data straight through (:156-164).  Times are `Nat`
nanoseconds of the monotonic clock.
-/
namespace Gensio.Ratelimit

/-- `struct ratelimit_config`: `xmit_buf_len` and `delay`. -/
structure Cfg where
  len : Nat
  delay : Nat
deriving DecidableEq, Repr

/-- `gensio_ratelimit_config`, :297-326, on the parsed values: a zero delay is refused. -/
def Cfg.make (len delay : Nat) : Option Cfg := if delay = 0 then none else some { len, delay }

/-- `xmit_ready`, and the time at which the running timer expires. -/
structure St where
  ready : Bool := false
  timer : Option Nat := none
deriving DecidableEq, Repr

/-- `ratelimit_try_connect`, :102-108. -/
def connect (s : St) : St := { s with ready := true }

/-- The copy loop of `ratelimit_ul_write`, :131-139; `buf` is `xmit_buf[0 .. count]`.  A copy past the
buffer is `none`. -/
def gather (c : Cfg) (buf : List UInt8) : List (List UInt8) → Option (List UInt8)
  | [] => some buf
  | x :: sg =>
    if buf.length < c.len then
      let len := if x.length > c.len - buf.length then c.len - buf.length else x.length
      if buf.length + len ≤ c.len then gather c (buf ++ x.take len) sg else none
    else some buf

/-- `ratelimit_ul_write`, :117-154, at time `now`; the lower layer fails or takes up to a number
of bytes.  Result: state, count reported (`none` for an error), bytes the lower layer took. -/
def ulWrite (c : Cfg) (s : St) (sg : List (List UInt8)) (sink : Option Nat) (now : Nat) :
    Option (St × Option Nat × List UInt8) :=
  if !s.ready then some (s, some 0, [])
  else do
    let buf ← gather c [] sg
    match sink with
    | none => some (s, none, [])
    | some k =>
      let count := min k buf.length
      if count > 0 then some ({ ready := false, timer := some (now + c.delay) }, some count, buf.take count)
      else some (s, some count, [])

/-- `ratelimit_filter_timeout`, :191-200; the timer has expired. -/
def timeout (_ : St) : St := { ready := true, timer := none }

end Gensio.Ratelimit
