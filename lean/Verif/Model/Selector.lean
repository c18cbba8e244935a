import Verif.Model.Heap

/-!
# Timers, runners and waiting threads of `lib/os_unix_selector.c`

All the state here is protected by `sel->timer_lock`.  A step of the model is what one thread does from taking the lock, or
from one test of a loop it is in with the lock held, to the next place where it gives up the lock or goes round the loop.
Between two steps of a thread that does not hold the lock any steps of other threads may come.

Simplifications:
* A timer is a number, its memory is in the heap model (`Verif.Model.Heap`) and `live` says whether the memory is allocated.
  Touching the memory of a timer or runner that is not allocated is undefined and makes the result `none`.
* The queue of runners, linked through `next`, is a list of numbers.  A runner's function and data are not kept.
* The wait list is a list with the entry of `wait_list.next` first; `sig` says that `send_sig` was called for the entry.
  Every thread passes a `send_sig` (`os_unix.c:237-243`, `:1014`).
* Waiting for file descriptors, :1688-1698, may end at any time (descriptor ready, time up, or signal).
* What the handlers do with timers and runners are steps of their own, made while the thread is inside the handler.
* A thread that calls the selector again from inside a handler counts as another thread.
* Out of memory is not modelled.
-/

namespace Gensio.Sel

open Gensio.Heap (Heap upd)

abbrev Time := Int × Int

/-- `cmp_timeval`, :169-185. -/
abbrev tcmp : Time → Time → Int := Heap.cmpTimeval

/-- `heap_val_t`, :130-159, without the handler, its data and the selector; `done` says that `done_handler` is set. -/
structure Tv where
  timeout : Time := (0, 0)
  inHeap : Bool := false
  stopped : Bool := false
  freed : Bool := false
  inHandler : Bool := false
  done : Bool := false
  deriving DecidableEq

/-- `heap_cmp_key`, :187-191. -/
def kcmp (a b : Tv) : Int := tcmp a.timeout b.timeout

/-- Whether `process_runners` is the call before or the one after the wait, :1658, :1728. -/
inductive Phase | before | after
  deriving DecidableEq

/-- Where a thread is. -/
inductive Loc
  /-- Not in the selector. -/
  | out
  /-- At the test of the loop of `process_runners`, :1181, with the lock held. -/
  | runners (rest : List Nat) (ph : Phase) (count : Nat)
  /-- In the function of a runner, :1190, without the lock. -/
  | inRunner (r : Nat) (rest : List Nat) (ph : Phase) (count : Nat)
  /-- At the test of the loop of `process_timers`, :1057, with the lock held. -/
  | timers (now : Time) (count : Nat)
  /-- In the handler of a timer, :1070, without the lock. -/
  | inHandler (t : Nat) (now : Time) (count : Nat)
  /-- In the done handler of a timer, :1081, without the lock. -/
  | inDone (t : Nat) (now : Time) (count : Nat)
  /-- Waiting, :1688-1698, without the lock. -/
  | waiting
  deriving DecidableEq

/-- `sel_wait_list_t`, :198-223. -/
structure Wait where
  thread : Nat
  wake : Time
  sig : Bool
  deriving DecidableEq

/-- `struct selector_s`, :224-268, the part protected by `timer_lock`.  `adds` counts the calls of `theap_add` and bounds the
loops of the heap. -/
structure Sel where
  heap : Heap Tv
  live : Nat → Bool
  adds : Nat
  queue : List Nat
  inUse : Nat → Bool
  rlive : Nat → Bool
  waits : List Wait
  loc : Nat → Loc
  lock : Option Nat
  clock : Time

/-- What happens. -/
inductive Act
  /-- The clock of `sel_get_monotonic_time` moves. -/
  | tick (t : Time)
  | allocTimer (t : Nat)
  | start (t : Nat) (timeout : Time)
  | stop (t : Nat)
  | stopDone (t : Nat)
  | free (t : Nat)
  | allocRunner (r : Nat)
  | run (r : Nat)
  | freeRunner (r : Nat)
  /-- Thread `w` calls `sel_select_intr_sigmask`. -/
  | enter (w : Nat)
  /-- Thread `w`, which holds the lock, goes on. -/
  | go (w : Nat)
  /-- What thread `w` called without the lock returns and the thread gets the lock. -/
  | back (w : Nat)
  deriving DecidableEq

/-- What can be seen from outside. -/
inductive Ev
  | silent
  /-- An error number is returned. -/
  | ret (n : Nat)
  /-- The function of the runner is called. -/
  | runner (w r : Nat)
  /-- The handler of the timer is called. -/
  | handler (w t : Nat)
  /-- The done handler of the timer is called. -/
  | done (w t : Nat)
  /-- The selector is through with the timer after one of its handlers has returned. -/
  | fin (w t : Nat)
  /-- The thread starts to wait until the time given. -/
  | wait (w : Nat) (wake : Time)
  /-- The thread leaves the selector. -/
  | leave (w : Nat)
  deriving DecidableEq

def eBusy : Nat := 16
def eTimedOut : Nat := 110

/-- Storing into a timer. -/
def Sel.setTv (s : Sel) (t : Nat) (v : Tv) : Sel := { s with heap := { s.heap with val := upd s.heap.val t v } }

/-- `theap_add` and `timer->val.in_heap = 1`. -/
def Sel.heapAdd (s : Sel) (t : Nat) : Option Sel :=
  match s.heap.add kcmp (s.adds + 1) t with
  | none => none
  | some h => some (({ s with heap := h, adds := s.adds + 1 } : Sel).setTv t { h.val t with inHeap := true })

/-- `theap_remove` and `timer->val.in_heap = 0`. -/
def Sel.heapRemove (s : Sel) (t : Nat) : Option Sel :=
  match s.heap.remove kcmp s.adds t with
  | none => none
  | some h => some (({ s with heap := h } : Sel).setTv t { h.val t with inHeap := false })

/-- `i_wake_sel_thread` with a time, :357-372. -/
def wakeBefore (ws : List Wait) (time : Time) : List Wait :=
  ws.map fun w => if tcmp time w.wake < 0 then { w with sig := true } else w

/-- `i_sel_wake_first`, :382-392. -/
def wakeFirst : List Wait → List Wait
  | [] => []
  | w :: ws => { w with sig := true } :: ws

/-- `sel_alloc_timer`, :882-902. -/
def Sel.allocTimer (s : Sel) (t : Nat) : Sel :=
  { s with live := upd s.live t true }.setTv t { stopped := true }

/-- `sel_stop_timer_i`, :904-925. -/
def Sel.stopI (s : Sel) (t : Nat) : Option (Sel × Nat) :=
  let rv := if (s.heap.val t).stopped then eTimedOut else 0
  let s1 := if (s.heap.val t).inHeap then s.heapRemove t else some s
  match s1 with
  | none => none
  | some s => some (s.setTv t { s.heap.val t with stopped := true }, rv)

/-- `sel_free_timer`, :927-944. -/
def Sel.freeTimer (s : Sel) (t : Nat) : Option Sel :=
  let s1 := if (s.heap.val t).inHeap then (s.stopI t).map (·.1) else some s
  match s1 with
  | none => none
  | some s =>
    let s := s.setTv t { s.heap.val t with freed := true }
    if (s.heap.val t).inHandler then some s else some { s with live := upd s.live t false }

/-- `sel_start_timer`, :946-975, with `wake_timer_sel_thread`, :406-413. -/
def Sel.startTimer (s : Sel) (t : Nat) (timeout : Time) : Option (Sel × Nat) :=
  if (s.heap.val t).inHeap then some (s, eBusy)
  else
    let oldTop := s.heap.top
    let s := s.setTv t { s.heap.val t with timeout := timeout }
    let s1 := if (s.heap.val t).inHandler then some s else s.heapAdd t
    match s1 with
    | none => none
    | some s =>
      let s := s.setTv t { s.heap.val t with stopped := false }
      if oldTop ≠ s.heap.top then some ({ s with waits := wakeBefore s.waits timeout }, 0) else some (s, 0)

/-- `sel_stop_timer_with_done`, :990-1028. -/
def Sel.stopTimerDone (s : Sel) (t : Nat) : Option (Sel × Nat) :=
  if (s.heap.val t).done then some (s, eBusy)
  else if (s.heap.val t).stopped || (s.heap.val t).inHandler then some (s, eTimedOut)
  else
    let s := s.setTv t { s.heap.val t with stopped := true, done := true, inHandler := true }
    let s1 := if (s.heap.val t).inHeap then s.heapRemove t else some s
    match s1 with
    | none => none
    | some s =>
      match (s.setTv t { s.heap.val t with timeout := s.clock }).heapAdd t with
      | none => none
      | some s => some (s, 0)

/-- `sel_run`, :1144-1171. -/
def Sel.runRunner (s : Sel) (r : Nat) : Sel × Nat :=
  if s.inUse r then (s, eBusy)
  else ({ s with inUse := upd s.inUse r true, queue := s.queue ++ [r], waits := wakeFirst s.waits }, 0)

/-- `sel_free_runner`, :1129-1142. -/
def Sel.freeRunner (s : Sel) (r : Nat) : Sel × Nat :=
  if s.inUse r then (s, eBusy) else ({ s with rlive := upd s.rlive r false }, 0)

/-- The end of a round of the loop of `process_timers`, :1084-1091. -/
def Sel.finish (s : Sel) (w t : Nat) (now : Time) (count : Nat) : Option (Sel × Ev) :=
  let s := s.setTv t { s.heap.val t with inHandler := false }
  let s1 :=
    if (s.heap.val t).freed then some { s with live := upd s.live t false }
    else if (s.heap.val t).stopped then some s
    else s.heapAdd t
  match s1 with
  | none => none
  | some s => some ({ s with loc := upd s.loc w (.timers now count) }, .fin w t)

/-- The part of a round of the loop of `process_timers` after the handler of the timer, :1073-1083. -/
def Sel.afterHandler (s : Sel) (w t : Nat) (now : Time) (count : Nat) : Option (Sel × Ev) :=
  if (s.heap.val t).done then
    let s := s.setTv t { s.heap.val t with done := false, inHandler := true }
    some ({ s with lock := none, loc := upd s.loc w (.inDone t now (count + 1)) }, .done w t)
  else s.finish w t now (count + 1)

/-- The time to wait until when no timer was due, :1101-1112. -/
def Sel.absTime (s : Sel) (now : Time) : Time :=
  match s.heap.top with
  | some t => (s.heap.val t).timeout
  | none => (now.1 + 100000, now.2)

/-- After the loop of `process_timers`, :1096-1112, :1661-1686 and :1730. -/
def Sel.timersDone (s : Sel) (w : Nat) (now : Time) (count : Nat) : Option (Sel × Ev) :=
  if count = 0 ∧ s.queue = [] then
    some ({ s with waits := ⟨w, s.absTime now, false⟩ :: s.waits, lock := none, loc := upd s.loc w .waiting },
      .wait w (s.absTime now))
  else some ({ s with lock := none, loc := upd s.loc w .out }, .leave w)

/-- A round of the loop of `process_timers`, :1057-1072. -/
def Sel.timersRound (s : Sel) (w : Nat) (now : Time) (count : Nat) : Option (Sel × Ev) :=
  match s.heap.top with
  | none => s.timersDone w now count
  | some t =>
    if s.live t = false then none
    else if tcmp now (s.heap.val t).timeout ≥ 0 then
      match s.heapRemove t with
      | none => none
      | some s =>
        let s := s.setTv t { s.heap.val t with stopped := true }
        if (s.heap.val t).inHandler then s.afterHandler w t now count
        else
          let s := s.setTv t { s.heap.val t with inHandler := true }
          some ({ s with lock := none, loc := upd s.loc w (.inHandler t now count) }, .handler w t)
    else s.timersDone w now count

/-- A round of the loop of `process_runners`, :1181-1194, or what comes after it: `process_timers`, :1055-1056, or the end,
:1730. -/
def Sel.runnersRound (s : Sel) (w : Nat) (ph : Phase) (count : Nat) : List Nat → Option (Sel × Ev)
  | r :: rest =>
    if s.rlive r = false then none
    else some ({ s with inUse := upd s.inUse r false, lock := none, loc := upd s.loc w (.inRunner r rest ph (count + 1)) },
      .runner w r)
  | [] =>
    match ph with
    | .before => some ({ s with loc := upd s.loc w (.timers s.clock count) }, .silent)
    | .after => some ({ s with lock := none, loc := upd s.loc w .out }, .leave w)

/-- The next piece of a thread that holds the lock. -/
def Sel.go (s : Sel) (w : Nat) : Option (Sel × Ev) :=
  match s.loc w with
  | .runners rest ph count => s.runnersRound w ph count rest
  | .timers now count => s.timersRound w now count
  | _ => none

/-- A thread gets the lock after a call made without it.  The last case is the end of the wait, :1702-1728. -/
def Sel.back (s : Sel) (w : Nat) : Option (Sel × Ev) :=
  let s := { s with lock := some w }
  match s.loc w with
  | .inRunner _ rest ph count => some ({ s with loc := upd s.loc w (.runners rest ph count) }, .silent)
  | .inHandler t now count => if s.live t = false then none else s.afterHandler w t now count
  | .inDone t now count => if s.live t = false then none else s.finish w t now count
  | .waiting =>
    some ({ s with waits := s.waits.filter (·.thread ≠ w), queue := [], loc := upd s.loc w (.runners s.queue .after 0) },
      .silent)
  | _ => none

/-- Whether something can happen now: the lock and the places of the threads. -/
def Sel.can (s : Sel) : Act → Bool
  | .tick t => tcmp s.clock t ≤ 0
  | .allocTimer t => s.lock = none && !s.live t
  | .allocRunner r => s.lock = none && !s.rlive r
  | .start .. | .stop _ | .stopDone _ | .free _ | .run _ | .freeRunner _ => s.lock = none
  | .enter w => s.lock = none && s.loc w = .out
  | .go w => s.lock = some w
  | .back w => s.lock = none &&
    match s.loc w with
    | .inRunner .. | .inHandler .. | .inDone .. | .waiting => true
    | _ => false

/-- One step. -/
def Sel.step (s : Sel) : Act → Option (Sel × Ev)
  | .tick t => some ({ s with clock := t }, .silent)
  | .allocTimer t => some (s.allocTimer t, .silent)
  | .start t timeout => if s.live t then (s.startTimer t timeout).map fun p => (p.1, .ret p.2) else none
  | .stop t => if s.live t then (s.stopI t).map fun p => (p.1, .ret p.2) else none
  | .stopDone t => if s.live t then (s.stopTimerDone t).map fun p => (p.1, .ret p.2) else none
  | .free t => if s.live t then (s.freeTimer t).map fun s => (s, .ret 0) else none
  | .allocRunner r => some ({ s with rlive := upd s.rlive r true, inUse := upd s.inUse r false }, .silent)
  | .run r => if s.rlive r then some ((s.runRunner r).1, .ret (s.runRunner r).2) else none
  | .freeRunner r => if s.rlive r then some ((s.freeRunner r).1, .ret (s.freeRunner r).2) else none
  | .enter w => some ({ s with lock := some w, queue := [], loc := upd s.loc w (.runners s.queue .before 0) }, .silent)
  | .go w => s.go w
  | .back w => s.back w

/-- A new selector, `sel_alloc_selector_thread`, :1798-1875, for memory with any contents. -/
def Sel.init (val : Nat → Tv) (left right up : Nat → Option Nat) (inUse : Nat → Bool) (clock : Time) : Sel :=
  { heap := Heap.init val left right up, live := fun _ => false, adds := 0, queue := [], inUse := inUse,
    rlive := fun _ => false, waits := [], loc := fun _ => .out, lock := none, clock := clock }

/-- `diff_timeval`, :845-867; the loop adds to `tv_usec` until it is not negative. -/
def diffTimeval (l r : Time) : Time :=
  if l.1 < r.1 ∨ (l.1 = r.1 ∧ l.2 < r.2) then (0, 0)
  else go (l.1 - r.1) (l.2 - r.2) (r.2 - l.2).toNat
where
  go (sec usec : Int) : Nat → Time
    | 0 => (sec, usec)
    | n + 1 => if usec < 0 then go (sec - 1) (usec + 1000000) n else (sec, usec)

/-- `add_timeval`, :869-880. -/
def addTimeval (l r : Time) : Time :=
  go (l.1 + r.1) (l.2 + r.2) (l.2 + r.2).toNat
where
  go (sec usec : Int) : Nat → Time
    | 0 => (sec, usec)
    | n + 1 => if usec > 1000000 then go (sec + 1) (usec - 1000000) n else (sec, usec)

end Gensio.Sel
