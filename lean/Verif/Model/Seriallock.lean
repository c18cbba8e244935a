import Verif.Model.CLib

/-!
# Locks of serial ports, `lib/seriallock.c`

Processes take and give back the lock of one device.  A step is one call of the system: `open`, `read`, `kill`, `unlink`,
`write`, `link`, `flock`; between two steps of a process any steps of other processes may come.

Simplifications:
* A process is known by its process id, which is not used again, and opens the device at most once at a time.
* The second lock file has a name made from the device number, the same for all processes (`uucp_svr4_lock`, :63-104); the
  name of the first, `uucp_fname_lock`, :33-61, may differ when the device has several names.  A name is a number here.
* The lock directory exists, names can be allocated, `kill` fails only with `ESRCH`, and `open` for reading fails only when
  there is no such file.  `write_full`, :144-160, writes everything in one step or fails.
* The `TIOCEXCL` of `flock_mk_lock`, :303-307, is left out.
-/

namespace Gensio.Slock

open Gensio.CLib

/-- Setting one value of a function. -/
def upd {α : Type} (f : Nat → α) (k : Nat) (v : α) (n : Nat) : α := if n = k then v else f n

/-- `snprintf(buf.str, sizeof(buf), "%10ld\n", pid)`, :226-227. -/
def fmtPid (pid : Nat) : List UInt8 := List.replicate (10 - (dec pid).length) 32 ++ dec pid ++ [10]

/-- `sscanf(str, "%10d", &pid)` when `pid` is 0 before: at most ten characters after the white space. -/
def scan10d (s : List UInt8) : Int :=
  match (s.dropWhile isSpace).take 10 with
  | 45 :: r => - (digits 0 r : Int)
  | 43 :: r => digits 0 r
  | r => digits 0 r

/-- The number of the process that `check_lock_file`, :172-179, finds in what it has read; 0 for none.  A file of four bytes
is a number in binary. -/
def lockPid (data : List UInt8) : Int :=
  match data.take 63 with
  | [a, b, c, d] =>
    let v := a.toNat + 256 * b.toNat + 65536 * c.toNat + 16777216 * d.toNat
    if v < 2147483648 then v else (v : Int) - 4294967296
  | s => scan10d (s.takeWhile (· ≠ 0))

/-- Where a process is.  `second` says which of the two lock files is being checked. -/
inductive Pc
  /-- Has not got the device open. -/
  | idle
  /-- Before `open` in `check_lock_file`, :171. -/
  | check (second : Bool)
  /-- Before `read`, :172, of the file opened. -/
  | read (second : Bool) (ino : Nat)
  /-- Before `kill`, :181. -/
  | kill (second : Bool) (pid : Nat)
  /-- Before `unlink`, :183. -/
  | stale (second : Bool)
  /-- Before `open` with `O_EXCL`, :221. -/
  | create
  /-- Before `write`, :228. -/
  | write (ino : Nat)
  /-- Before `unlink` after `write` failed, :232. -/
  | undo
  /-- Before `link`, :234. -/
  | link
  /-- Before `flock`, :296. -/
  | flock
  /-- `serial_mk_lock` has returned 0. -/
  | held
  /-- Before the first `unlink` of `uucp_rm_lock`, :138. -/
  | rm1
  /-- Before the second one, :139. -/
  | rm2
  /-- Before `flock_rm_lock`, :287. -/
  | unflock
  /-- The process is gone. -/
  | dead
  deriving DecidableEq

/-- The files and the processes.  `uucp` and `flk` are the arguments `do_uucp_lock` and `do_flock` of a process, `name1` the
name of its first lock file. -/
structure Sys where
  dir : Nat → Option Nat
  data : Nat → List UInt8
  nextIno : Nat
  flock : Option Nat
  pc : Nat → Pc
  uucp : Nat → Bool
  flk : Nat → Bool
  name1 : Nat → Nat
  name2 : Nat

/-- What happens. -/
inductive Act
  /-- The process opens the device and calls `serial_mk_lock`, :338. -/
  | start (i : Nat)
  /-- Its next call. -/
  | go (i : Nat)
  /-- Its next call, which is `write`, fails. -/
  | fail (i : Nat)
  /-- It closes the device, `serial_rm_lock`, :327-335. -/
  | release (i : Nat)
  /-- The process ends or is killed. -/
  | die (i : Nat)
  deriving DecidableEq

def Sys.name (s : Sys) (i : Nat) (second : Bool) : Nat := if second then s.name2 else s.name1 i

def Sys.at (s : Sys) (i : Nat) (p : Pc) : Sys := { s with pc := upd s.pc i p }

/-- After a lock file that is no hindrance, :213-217. -/
def nextCheck (second : Bool) : Pc := if second then .create else .check true

/-- After `uucp_mk_lock` has returned 0, :346-347. -/
def Sys.gotUucp (s : Sys) (i : Nat) : Sys := s.at i (if s.flk i then .flock else .held)

/-- One call. -/
def Sys.go (s : Sys) (i : Nat) : Sys :=
  match s.pc i with
  | .check second =>
    match s.dir (s.name i second) with
    | none => s.at i (nextCheck second)
    | some ino => s.at i (.read second ino)
  | .read second ino =>
    let pid := lockPid (s.data ino)
    if pid > 0 then s.at i (.kill second pid.toNat)
    else if pid = 0 then s.at i (nextCheck second)
    else s.at i .idle
  | .kill second pid => if s.pc pid = .dead then s.at i (.stale second) else s.at i .idle
  | .stale second => { s with dir := upd s.dir (s.name i second) none }.at i (nextCheck second)
  | .create =>
    match s.dir (s.name1 i) with
    | some _ => s.at i .idle
    | none => { s with dir := upd s.dir (s.name1 i) (some s.nextIno), data := upd s.data s.nextIno [],
                       nextIno := s.nextIno + 1 }.at i (.write s.nextIno)
  | .write ino => { s with data := upd s.data ino (fmtPid i) }.at i .link
  | .undo => { s with dir := upd s.dir (s.name1 i) none }.at i .idle
  | .link =>
    match s.dir (s.name1 i), s.dir s.name2 with
    | some ino, none => { s with dir := upd s.dir s.name2 (some ino) }.gotUucp i
    | _, _ => s.gotUucp i
  | .flock =>
    match s.flock with
    | none => { s with flock := some i }.at i .held
    | some _ => s.at i .rm1
  | .rm1 => { s with dir := upd s.dir (s.name1 i) none }.at i .rm2
  | .rm2 => { s with dir := upd s.dir s.name2 none }.at i .unflock
  | .unflock => { s with flock := if s.flock = some i then none else s.flock }.at i .idle
  | .idle | .held | .dead => s

/-- One step; nothing happens when it does not apply. -/
def Sys.step (s : Sys) : Act → Sys
  | .start i =>
    if s.pc i = .idle then s.at i (if s.uucp i then .check false else if s.flk i then .flock else .held) else s
  | .go i => s.go i
  | .fail i =>
    match s.pc i with
    | .write _ => s.at i .undo
    | _ => s
  | .release i =>
    if s.pc i = .held then s.at i (if s.uucp i then .rm1 else .unflock) else s
  | .die i => { s with flock := if s.flock = some i then none else s.flock }.at i .dead

/-- No lock files and nobody has the device open. -/
def Sys.init (data : Nat → List UInt8) (uucp flk : Nat → Bool) (name1 : Nat → Nat) (name2 : Nat) : Sys :=
  { dir := fun _ => none, data := data, nextIno := 0, flock := none, pc := fun _ => .idle, uucp := uucp, flk := flk,
    name1 := name1, name2 := name2 }

def Sys.run (s : Sys) (l : List Act) : Sys := l.foldl Sys.step s

/-- The process has been told that it has the UUCP lock. -/
def Sys.holds (s : Sys) (i : Nat) : Prop := s.pc i = .held ∧ s.uucp i = true

end Gensio.Slock
