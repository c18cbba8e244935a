/-!
# Model of the time arithmetic, lib/gensio.c:3807-3907 and lib/os_unix.c:63-87

`gensio_time` is {int64_t secs; int32_t nsecs} (include/gensio/gensio_types.h:90-93).
Machine integers are `Int`; a result that does not fit its C type is the outcome `none`
(signed overflow is undefined).  C division and remainder truncate: `Int.tdiv`, `Int.tmod`.
-/
namespace Gensio.Time

/-- `gensio_time`, include/gensio/gensio_types.h:90-93. -/
structure T where
  secs : Int
  nsecs : Int
deriving DecidableEq, Repr

/-- `struct timeval` (64 bit `tv_sec`, `tv_usec`). -/
structure TV where
  sec : Int
  usec : Int
deriving DecidableEq, Repr

/-- A value that must fit an `int64_t`. -/
def i64 (x : Int) : Option Int := if -2 ^ 63 ≤ x ∧ x < 2 ^ 63 then some x else none
/-- A value that must fit an `int32_t`. -/
def i32 (x : Int) : Option Int := if -2 ^ 31 ≤ x ∧ x < 2 ^ 31 then some x else none

/-- `GENSIO_NSECS_IN_SEC`, gensio_time.h:71. -/
abbrev N : Int := 1000000000

/-- The loop `while (t->nsecs >= lim) { t->secs++; t->nsecs -= 1e9; }` (lib/gensio.c:3812-3815
with `lim` = 1e9; lib/gensio.c:3823-3826 uses `>`, i.e. `lim` = 1e9 + 1). -/
def carryUp (lim : Int) (hl : N ≤ lim) (secs nsecs : Int) : Option T :=
  if lim ≤ nsecs then do
    let s ← i64 (secs + 1)
    carryUp lim hl s (nsecs - N)
  else some ⟨secs, nsecs⟩
termination_by nsecs.toNat
decreasing_by simp only [N] at *; omega

/-- The loop `while (t->nsecs < 0) { t->secs--; t->nsecs += 1e9; }`, lib/gensio.c:3827-3830. -/
def carryDown (secs nsecs : Int) : Option T :=
  if nsecs < 0 then do
    let s ← i64 (secs - 1)
    carryDown s (nsecs + N)
  else some ⟨secs, nsecs⟩
termination_by (-nsecs).toNat
decreasing_by simp only [N]; omega

/-- `gensio_time_add`, lib/gensio.c:3807-3816. -/
def add (t v : T) : Option T := do
  let s ← i64 (t.secs + v.secs)
  let n ← i32 (t.nsecs + v.nsecs)
  carryUp N (by decide) s n

/-- `gensio_time_add_nsecs`, lib/gensio.c:3818-3831. -/
def addNsecs (t : T) (v : Int) : Option T := do
  let s ← i64 (t.secs + v.tdiv N)
  let n ← i32 (t.nsecs + v.tmod N)
  let t ← carryUp (N + 1) (by decide) s n
  carryDown t.secs t.nsecs

/-- `GENSIO_TIME_CONV_DOWN`, gensio_time.h:79. -/
def convDown (v d : Int) : Int := (v + d.tdiv 2).tdiv d

/-- `gensio_time_to_msecs`, lib/gensio.c:3833-3841. -/
def toMsecs (t : T) : Option Int := do
  let v ← i64 (t.secs * 1000)
  i64 (v + convDown t.nsecs 1000000)

/-- `gensio_time_to_usecs`, lib/gensio.c:3843-3851. -/
def toUsecs (t : T) : Option Int := do
  let v ← i64 (t.secs * 1000000)
  i64 (v + convDown t.nsecs 1000)

/-- `gensio_time_to_nsecs`, lib/gensio.c:3853-3861 (adds `GENSIO_NSECS_TO_USECS(nsecs)`). -/
def toNsecs (t : T) : Option Int := do
  let v ← i64 (t.secs * N)
  i64 (v + convDown t.nsecs 1000)

/-- `gensio_msecs_to_time`, lib/gensio.c:3863-3868. -/
def ofMsecs (v : Int) : Option T := do
  let n ← i32 (v.tmod 1000 * 1000000)
  some ⟨v.tdiv 1000, n⟩

/-- `gensio_usecs_to_time`, lib/gensio.c:3870-3875. -/
def ofUsecs (v : Int) : Option T := do
  let n ← i32 (v.tmod 1000000 * 1000)
  some ⟨v.tdiv 1000000, n⟩

/-- `gensio_nsecs_to_time`, lib/gensio.c:3877-3882. -/
def ofNsecs (v : Int) : Option T := do
  let n ← i32 (v.tmod N)
  some ⟨v.tdiv N, n⟩

/-- `gensio_time_diff_nsecs`, lib/gensio.c:3884-3893. -/
def diffNsecs (t1 t2 : T) : Option Int := do
  let v ← i64 (t1.secs - t2.secs)
  let v ← i64 (v * N)
  i64 (v + (t1.nsecs - t2.nsecs))

/-- `gensio_time_cmp`, lib/gensio.c:3895-3907. -/
def cmp (t1 t2 : T) : Int :=
  if t1.secs < t2.secs then -1
  else if t1.secs > t2.secs then 1
  else if t1.nsecs < t2.nsecs then -1
  else if t1.nsecs > t2.nsecs then 1
  else 0

/-- First loop of `add_to_timeval`, lib/os_unix.c:68-71 (`> 1000000`). -/
def tvUp (sec usec : Int) : TV :=
  if usec > 1000000 then tvUp (sec + 1) (usec - 1000000) else ⟨sec, usec⟩
termination_by usec.toNat
decreasing_by omega

/-- Second loop of `add_to_timeval`, lib/os_unix.c:72-75. -/
def tvDown (sec usec : Int) : TV :=
  if usec < 0 then tvDown (sec - 1) (usec + 1000000) else ⟨sec, usec⟩
termination_by (-usec).toNat
decreasing_by omega

/-- `add_to_timeval`, lib/os_unix.c:63-76 (no overflow check). -/
def addToTimeval (tv : TV) (t : T) : TV :=
  let r := tvUp (tv.sec + t.secs) (tv.usec + (t.nsecs + 500).tdiv 1000)
  tvDown r.sec r.usec

/-- `gensio_time_to_timeval`, lib/os_unix.c:78-86, for a non-NULL time. -/
def toTimeval (t : T) : TV := ⟨t.secs, (t.nsecs + 500).tdiv 1000⟩

/-- `timeval_to_gensio_time`, lib/os_unix.c:88-95. -/
def ofTimeval (tv : TV) : T := ⟨tv.sec, tv.usec * 1000⟩

end Gensio.Time
