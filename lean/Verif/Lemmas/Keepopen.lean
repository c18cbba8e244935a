import Verif.Model.Keepopen

/-!
# Invariants of the keepopen filter
-/
set_option linter.unusedSimpArgs false
namespace Gensio.Keepopen

/-- 1 or 0. -/
def n (b : Bool) : Nat := if b then 1 else 0

/-- The child has a close it will report, or is reporting. -/
def K.closing (s : K) : Bool := s.child = .closing true || s.child = .closing false

/-- The report of a close is in progress. -/
def K.reporting (s : K) : Bool := s.cc = .closeOpenCb || s.cc = .closeCb

/-- The handler of the timer was called and has not released its reference. -/
def K.handling (s : K) : Bool := s.hnd = .called || s.hnd = .failCb || s.hnd = .stopOpenCb || s.hnd = .stopCloseCb

/-- The reports of the child and of the timer that are to come, and the user. -/
def K.owners (s : K) : Nat := n (!s.gone) + n s.armed + n s.handling + n s.closing + n s.reporting

/-- What the user must not do: close or free while a report of the child or a timeout waits in a log or in the open callback for a failed
open; free an open gensio, or one whose child is closing, or in a report of the open; disable.  And what the child must not do: report
an open after it was closed. -/
def clean (s : K) : Op → Prop
  | .close .. => s.hnd ≠ .failCb ∧ s.cc ≠ .errLog ∧ s.cc ≠ .okLog
  | .free _ =>
    (s.state = .closed ∨ s.state = .openInitFail ∨ s.state = .closeStopTimer ∨ s.state = .childClosed ∨ s.cc = .closeOpenCb) ∧
    s.hnd ≠ .failCb ∧ s.hnd ≠ .tail ∧ s.cc ≠ .errLog ∧ s.cc ≠ .okLog ∧ s.cc ≠ .openCb ∧ s.cc ≠ .ioLog
  | .disable => False
  | .childLate _ => False
  | _ => True

structure Inv (s : K) : Prop where
  refs : s.ref = s.owners
  freed : s.freed = true ↔ s.ref = 0
  gone : s.gone = true → (s.state = .closed ∨ s.state = .closeStopTimer) ∧ s.openDone = none ∧ s.cc ≠ .errLog ∧ s.cc ≠ .okLog ∧
    s.cc ≠ .openCb ∧ s.cc ≠ .ioLog ∧ s.hnd ≠ .failCb ∧ s.hnd ≠ .tail
  errLog : s.cc = .errLog → s.state = .inOpen ∧ s.child = .closed
  okLog : s.cc = .okLog → s.state = .inOpen ∧ s.child = .opened
  closeOpenCb : s.cc = .closeOpenCb → (s.state = .inClose ∨ s.gone = true ∧ s.state = .closed) ∧ s.child = .closed ∧ s.openDone = none
  called : s.hnd = .called → s.armed = false ∧ (s.state = .openInitFail ∨ s.state = .childClosed ∨ s.state = .closeStopTimer)
  failCb : s.hnd = .failCb → s.armed = false ∧ s.state = .openInitFail ∧ s.openDone = none
  stopOpenCb : s.hnd = .stopOpenCb → s.armed = false ∧ s.state = .closeStopTimer ∧ s.openDone = none
  timed : s.state = .openInitFail ∨ s.state = .childClosed ∨ s.state = .closeStopTimer →
    s.child = .closed ∧ (s.armed = true ∨ s.hnd = .called ∨ s.hnd = .failCb ∨ s.hnd = .stopOpenCb)
  untimed : s.armed = true → s.state = .openInitFail ∨ s.state = .childClosed ∨ s.state = .closeStopTimer
  inOpen : s.state = .inOpen → s.child = .opening ∨ s.cc = .errLog ∨ s.cc = .okLog
  opened : s.state = .opened → s.child = .opened
  inClose : s.state = .inClose → s.closing = true ∨ s.cc = .closeOpenCb
  childErr : s.state = .childErrClose → s.closing = true
  closed : s.state = .closed → s.child = .closed ∧ s.openDone = none
  opening : s.child = .opening → s.cc ≠ .closeOpenCb ∧ s.state = .inOpen
  isopen : s.child = .opened → s.cc ≠ .closeOpenCb ∧ (s.state = .opened ∨ s.cc = .okLog)
  pass : s.pass ≠ none → s.gone = false
  settled : s.state = .childClosed ∨ s.state = .opened ∨ s.state = .childErrClose → s.openDone = none
  isclosing : s.closing = true → s.state = .inClose ∨ s.state = .childErrClose

theorem Inv.start : Inv init := by
  constructor <;> simp [init, K.owners, n, K.handling, K.closing, K.reporting]

theorem Inv.dead {s : K} (h : Inv s) (hf : s.freed = true) : s.gone = true ∧ s.armed = false ∧ s.hnd = .none ∧ s.cc = .none := by
  have h0 := h.freed.mp hf
  rw [h.refs, K.owners] at h0
  have hg : s.gone = true := by
    cases e : s.gone
    · rw [e] at h0
      simp [n] at h0
    · rfl
  have h1 := h.gone hg
  have ha : s.armed = false := by
    cases e : s.armed
    · rfl
    · rw [e] at h0
      simp [n] at h0
  have h2 : s.handling = false := by
    cases e : s.handling
    · rfl
    · rw [e] at h0
      simp [n] at h0
  have h3 : s.reporting = false := by
    cases e : s.reporting
    · rfl
    · rw [e] at h0
      simp [n] at h0
  simp only [K.handling, K.reporting] at h2 h3
  refine ⟨hg, ha, ?_, ?_⟩
  · cases e : s.hnd <;> simp_all
  · cases e : s.cc <;> simp_all

theorem Inv.alive {s : K} {op : Op} (h : Inv s) (hc : can s op = true) : s.freed = false := by
  cases e : s.freed
  · rfl
  · obtain ⟨h1, h2, h3, h4⟩ := h.dead e
    have h5 := h.pass
    cases op <;> simp_all [can]

/-- The step is not a fault and keeps the invariant. -/
def Good : Option K → Prop
  | some s => Inv s
  | none => False

theorem bind_ite' {α β : Type} {c : Prop} [Decidable c] (x y : Option α) (f : α → Option β) :
    (if c then x else y).bind f = if c then x.bind f else y.bind f := by split <;> rfl

theorem map_ite' {α β : Type} {c : Prop} [Decidable c] (x y : Option α) (f : α → β) :
    (if c then x else y).map f = if c then x.map f else y.map f := by split <;> rfl

theorem good_ite {c : Prop} [Decidable c] (x y : Option K) : Good (if c then x else y) = if c then Good x else Good y := by
  split <;> rfl

set_option maxRecDepth 4000 in
set_option maxHeartbeats 2000000 in
theorem Inv.next {r : Bool} {s : K} {op : Op} (h : Inv s) (hc : can s op = true) (hp : clean s op) : Good (step r s op) := by
  have hf : s.freed = false := h.alive hc
  obtain ⟨state, ref, lastErr, rx, tx, openDone, closeDone, armed, hnd, child, childRx, childTx, cc, pass, gone, freed, log⟩ := s
  obtain ⟨refs, hfreed, hgone, errLog, okLog, closeOpenCb, called, failCb, stopOpenCb, timed, untimed, inOpen, opened, inClose, childErr, closed, opening, isopen, hpass, settled, isclosing⟩ := h
  dsimp only at hf
  subst hf
  cases op <;> simp only [can, clean, step, Bool.false_eq_true, if_false, K.owners, K.closing, K.reporting, K.handling] at *
  case free cerr =>
    obtain ⟨hs, h2, h3, h4, h5, h6, h7⟩ := hp
    simp only [Bool.and_eq_true, Bool.not_eq_true', Option.isNone_iff_eq_none] at hc
    obtain ⟨rfl, rfl⟩ := hc
    have hcc : cc = .none ∨ cc = .closeOpenCb ∨ cc = .closeCb := by cases cc <;> grind
    have hst : state = .closed ∨ state = .openInitFail ∨ state = .closeStopTimer ∨ state = .childClosed ∨ (state = .inClose ∧ cc = .closeOpenCb) := by
      rcases hs with h | h | h | h | h <;> grind
    clear hs hgone hpass errLog okLog inOpen opened opening isopen failCb
    rcases hst with rfl | rfl | rfl | rfl | ⟨rfl, rfl⟩
    · obtain ⟨rfl, rfl⟩ := closed rfl
      have ha : armed = false := by cases armed <;> simp_all
      subst ha
      rcases hcc with rfl | rfl | rfl <;> cases hnd <;> simp_all [keepnFree, cancelTimer, deref, unlockDeref, startTimer, Gensio.Keepopen.ref, K.say, n, bind_ite', map_ite', good_ite, Good] <;> constructor <;> simp_all [K.owners, K.closing, K.reporting, K.handling, n]
    · obtain ⟨rfl, ht⟩ := timed (by simp)
      rcases hcc with rfl | rfl | rfl <;> cases hnd <;> cases armed <;> simp_all [keepnFree, cancelTimer, deref, unlockDeref, startTimer, Gensio.Keepopen.ref, K.say, n, bind_ite', map_ite', good_ite, Good] <;> constructor <;> simp_all [K.owners, K.closing, K.reporting, K.handling, n]
    · obtain ⟨rfl, ht⟩ := timed (by simp)
      rcases hcc with rfl | rfl | rfl <;> cases hnd <;> cases armed <;> simp_all [keepnFree, cancelTimer, deref, unlockDeref, startTimer, Gensio.Keepopen.ref, K.say, n, bind_ite', map_ite', good_ite, Good] <;> constructor <;> simp_all [K.owners, K.closing, K.reporting, K.handling, n]
    · obtain ⟨rfl, ht⟩ := timed (by simp)
      rcases hcc with rfl | rfl | rfl <;> cases hnd <;> cases armed <;> simp_all [keepnFree, cancelTimer, deref, unlockDeref, startTimer, Gensio.Keepopen.ref, K.say, n, bind_ite', map_ite', good_ite, Good] <;> constructor <;> simp_all [K.owners, K.closing, K.reporting, K.handling, n]
    · obtain ⟨h8, rfl, rfl⟩ := closeOpenCb rfl
      have ha : armed = false := by cases armed <;> simp_all
      subst ha
      cases hnd <;> simp_all [keepnFree, cancelTimer, deref, unlockDeref, startTimer, Gensio.Keepopen.ref, K.say, n, bind_ite', map_ite', good_ite, Good] <;> constructor <;> simp_all [K.owners, K.closing, K.reporting, K.handling, n]
  case «open» id cerr =>
    cases state <;> cases hnd <;> (try simp [keepnOpen, openChild, startTimer, Gensio.Keepopen.ref, K.say, K.owners, K.closing, K.reporting, K.handling, n, bind_ite', map_ite', good_ite, Good]) <;> (repeat' split) <;> (try simp only [Good]) <;> first | (exfalso; grind [n]) | (constructor <;> (try simp [K.owners, K.closing, K.reporting, K.handling, n]) <;> (try grind [n]))
  case close id cerr =>
    cases state <;> cases child <;> (try simp [keepnClose, closeChild, cancelTimer, deref, startTimer, Gensio.Keepopen.ref, K.say, K.owners, K.closing, K.reporting, K.handling, n, bind_ite', map_ite', good_ite, Good]) <;> (repeat' split) <;> (try simp only [Good]) <;> first | (exfalso; grind [n]) | (constructor <;> (try simp [K.owners, K.closing, K.reporting, K.handling, n]) <;> (try grind [n]))
  case setRx b =>
    cases state <;> (try simp [K.say, K.owners, K.closing, K.reporting, K.handling, n, bind_ite', map_ite', good_ite, Good]) <;> (repeat' split) <;> (try simp only [Good]) <;> first | (exfalso; grind [n]) | (constructor <;> (try simp [K.owners, K.closing, K.reporting, K.handling, n]) <;> (try grind [n]))
  case setTx b =>
    cases state <;> (try simp [K.say, K.owners, K.closing, K.reporting, K.handling, n, bind_ite', map_ite', good_ite, Good]) <;> (repeat' split) <;> (try simp only [Good]) <;> first | (exfalso; grind [n]) | (constructor <;> (try simp [K.owners, K.closing, K.reporting, K.handling, n]) <;> (try grind [n]))
  case pass =>
    cases pass <;> (try simp [Option.isSome, K.owners, K.closing, K.reporting, K.handling, n, bind_ite', map_ite', good_ite, Good]) <;> (repeat' split) <;> (try simp only [Good]) <;> first | (exfalso; grind [n]) | (constructor <;> (try simp [K.owners, K.closing, K.reporting, K.handling, n]) <;> (try grind [n]))
  case write err cerr =>
    cases state <;> cases child <;> (try simp [handleIoErr, closeChild, closeErr, startTimer, Gensio.Keepopen.ref, K.say, K.owners, K.closing, K.reporting, K.handling, n, bind_ite', map_ite', good_ite, Good]) <;> (repeat' split) <;> (try simp only [Good]) <;> first | (exfalso; grind [n]) | (constructor <;> (try simp [K.owners, K.closing, K.reporting, K.handling, n]) <;> (try grind [n]))
  case childOpen err rx tx =>
    cases state <;> (try simp [openDoneCb, openFinish, openReport, K.say, K.owners, K.closing, K.reporting, K.handling, n, bind_ite', map_ite', good_ite, Good]) <;> (repeat' split) <;> (try simp only [Good]) <;> first | (exfalso; grind [n]) | (constructor <;> (try simp [K.owners, K.closing, K.reporting, K.handling, n]) <;> (try grind [n]))
  case childClosed =>
    cases state <;> cases openDone <;> (try simp [closeDoneCb, reportClose, unlockDeref, startTimer, Gensio.Keepopen.ref, K.say, K.owners, K.closing, K.reporting, K.handling, n, bind_ite', map_ite', good_ite, Good]) <;> (repeat' split) <;> (try simp only [Good]) <;> first | (exfalso; grind [n]) | (constructor <;> (try simp [K.owners, K.closing, K.reporting, K.handling, n]) <;> (try grind [n]))
  case childErr err cerr =>
    cases state <;> cases child <;> (try simp [handleIoErr, closeChild, closeErr, startTimer, Gensio.Keepopen.ref, K.say, K.owners, K.closing, K.reporting, K.handling, n, bind_ite', map_ite', good_ite, Good]) <;> (repeat' split) <;> (try simp only [Good]) <;> first | (exfalso; grind [n]) | (constructor <;> (try simp [K.owners, K.closing, K.reporting, K.handling, n]) <;> (try grind [n]))
  case childCont =>
    cases cc <;> (try simp [openFailed, openFinish, openReport, reportClose, unlockDeref, startTimer, Gensio.Keepopen.ref, K.say, K.owners, K.closing, K.reporting, K.handling, n, bind_ite', map_ite', good_ite, Good]) <;> (repeat' split) <;> (try simp only [Good]) <;> first | (exfalso; grind [n]) | (constructor <;> (try simp [K.owners, K.closing, K.reporting, K.handling, n]) <;> (try grind [n]))
  case fire =>
    cases state <;> cases hnd <;> (try simp [K.owners, K.closing, K.reporting, K.handling, n, bind_ite', map_ite', good_ite, Good]) <;> (repeat' split) <;> (try simp only [Good]) <;> first | (exfalso; grind [n]) | (constructor <;> (try simp [K.owners, K.closing, K.reporting, K.handling, n]) <;> (try grind [n]))
  case timeout cerr =>
    cases state <;> cases openDone <;> cases child <;> cases cerr <;> (try simp [retryTimeout, openChild, failFinish, reportClose, unlockDeref, startTimer, Gensio.Keepopen.ref, K.say, K.owners, K.closing, K.reporting, K.handling, n, bind_ite', map_ite', good_ite, Good]) <;> (repeat' split) <;> (try simp only [Good]) <;> first | (exfalso; grind [n]) | (constructor <;> (try simp [K.owners, K.closing, K.reporting, K.handling, n]) <;> (try grind [n]))
  case timerCont =>
    cases hnd <;> (try simp [failFinish, reportClose, unlockDeref, startTimer, Gensio.Keepopen.ref, K.say, K.owners, K.closing, K.reporting, K.handling, n, bind_ite', map_ite', good_ite, Good]) <;> (repeat' split) <;> (try simp only [Good]) <;> first | (exfalso; grind [n]) | (constructor <;> (try simp [K.owners, K.closing, K.reporting, K.handling, n]) <;> (try grind [n]))

end Gensio.Keepopen
