import Verif.Lemmas.KeepopenTold

/-!
# The keepopen filter

C112: no fault.  C113: the reports to the user.  C114: the child is opened again.  C115: references.  C116: the enables.
C117: writes.  C118: the error in the log.
-/
set_option linter.unusedSimpArgs false
namespace Gensio.Keepopen

/-! ## C112 -/

/-- C112, for steps that are `clean`: no assertion fails, no lock is waited for in vain, no freed memory is used. -/
theorem C112_no_fault_partial {r : Bool} {s : K} {op : Op} (h : Reach r clean s) (hc : can s op = true) (hp : clean s op) :
    (step r s op).isSome = true := by
  have hg := h.inv.next (r := r) hc hp
  cases e : step r s op with
  | none => rw [e] at hg; exact hg.elim
  | some s' => rfl

/-- An open, a session with a failing child, and a close. -/
def session : List Op :=
  [.open 1 0, .childOpen 0 false false, .childCont, .childErr 5 0, .childCont, .childClosed, .fire, .timeout 6, .fire, .timeout 0, .childOpen 7 false false,
   .childCont, .fire, .timeout 0, .childOpen 0 true false, .childCont, .write 8 9, .close 2 0, .fire, .timeout 0, .timerCont, .free 0]

example : (match exec false init session with | .ok s => s.freed && s.log = [.openRet 1 true, .openCb 1, .ioErr 5 0, .ioErr 8 9, .closeRet 2 true, .closeCb 2, .free] | _ => false) = true := by decide +kernel

/-- An open gensio is freed: with a lock that cannot be taken twice `keepn_free` waits for itself, with the other one the report of the
close finds the state CLOSED. -/
theorem C112_free_open_violated : exec false init [.open 1 0, .childOpen 0 false false, .childCont, .free 0] = .fault ∧
    exec true init [.open 1 0, .childOpen 0 false false, .childCont, .free 0, .childClosed] = .fault := by decide +kernel

/-- The gensio is freed while it closes, or while it closes a child that failed. -/
theorem C112_free_closing_violated : exec false init [.open 1 0, .childOpen 0 false false, .childCont, .close 2 0, .free 0, .childClosed] = .fault ∧
    exec false init [.open 1 0, .childOpen 0 false false, .childCont, .childErr 5 0, .childCont, .free 0, .childClosed] = .fault := by decide +kernel

/-- The gensio is closed while its child opens, and the child reports that open (as `gensio_close(3)` allows). -/
theorem C112_close_opening_violated (err : Nat) : exec false init [.open 1 0, .close 2 0, .childLate err] = .fault := rfl

/-- The gensio is closed while the failure, or the success, of an open of the child is logged without the lock. -/
theorem C112_close_log_violated : exec false init [.open 1 0, .childOpen 5 false false, .close 2 0, .childCont] = .fault ∧
    exec false init [.open 1 0, .childOpen 0 false false, .childCont, .childErr 5 0, .childCont, .childClosed, .fire, .timeout 0, .childOpen 0 false false,
      .close 2 0, .childCont, .childClosed] = .fault := by decide +kernel

/-- The gensio is disabled, and perhaps freed, while the timer runs. -/
theorem C112_disable_violated : exec false init [.open 1 5, .disable, .fire, .timeout 0] = .fault ∧
    exec false init [.open 1 0, .childOpen 5 false false, .childCont, .childCont, .disable, .free 0, .fire, .timeout 0] = .fault := by decide +kernel

/-- The gensio is freed in its open callback, after an open of the child that failed, and another thread runs the timer. -/
theorem C112_free_callback_violated :
    exec false init [.open 1 0, .childOpen 5 false false, .childCont, .free 0, .fire, .timeout 0, .timerCont, .childCont] = .fault := by decide +kernel

/-! ## C113 -/

/-- The steps that come from the child or the timer, and not from the user or a failure of an open child. -/
def internal : Op → Bool
  | .childOpen .. | .childLate _ | .childClosed | .childCont | .fire | .timeout _ | .timerCont => true
  | _ => false

/-- Nothing is in progress. -/
def quiet (s : K) : Prop := ∀ op, internal op = true → can s op = false

theorem Reach.mono {r : Bool} {P Q : K → Op → Prop} {s : K} (hpq : ∀ s op, P s op → Q s op) (h : Reach r P s) : Reach r Q s := by
  induction h with
  | init => exact .init
  | step op _ hc hp e ih => exact .step op ih hc (hpq _ _ hp) e

theorem Reach.told {r : Bool} {s : K} (h : Reach r (fun s op => clean s op ∧ accepts s op) s) : Told s := by
  induction h with
  | init => constructor <;> simp [Keepopen.init, spec, phaseOf] <;> rfl
  | step op h hc hp e ih =>
    have hg := Told.next (r := r) (h.mono fun _ _ h => h.1).inv ih hc hp.1 hp.2
    rw [e] at hg
    exact hg

/-- C113, for steps that are `clean` and a child that does not refuse to close: what the user is told is what the manual says, and when
nothing is in progress everything asked for has been reported. -/
theorem C113_reports_partial {r : Bool} {s : K} (h : Reach r (fun s op => clean s op ∧ accepts s op) s) :
    (∃ p, spec s.log = some p) ∧
    (quiet s → spec s.log = some .idle ∨ spec s.log = some .opened ∨ spec s.log = some (.gone none)) := by
  have ht := h.told
  have hi := (h.mono fun _ _ h => h.1).inv
  refine ⟨⟨_, ht.spec⟩, fun hq => ?_⟩
  have q1 := hq .childCont rfl
  have q2 := hq .fire rfl
  have q3 := hq (.timeout 0) rfl
  have q4 := hq .timerCont rfl
  have q5 := hq (.childOpen 0 false false) rfl
  have q6 := hq .childClosed rfl
  have e1 : s.cc = .none := by simpa [can] using q1
  have e2 : s.hnd = .none := by
    cases e : s.hnd <;> simp_all [can]
  have e3 : s.armed = false := by simpa [can, e2] using q2
  rw [ht.spec]
  obtain ⟨t1, t2, t3⟩ := ht
  obtain ⟨refs, hfreed, hgone, errLog, okLog, closeOpenCb, called, failCb, stopOpenCb, timed, untimed, inOpen, opened, inClose, childErr, closed, opening, isopen, hpass, settled, isclosing⟩ := hi
  have e4 : s.state = .closed ∨ s.state = .opened := by
    cases ef : s.freed
    · simp only [can, ef, e1] at q5 q6
      cases e : s.state <;> grind [K.closing]
    · have := (h.mono fun _ _ h => h.1).inv.dead ef
      cases e : s.state <;> grind
  rcases e4 with e | e
  · cases eg : s.gone
    · left
      simp [phaseOf, eg, e]
    · right; right
      simp only [phaseOf, eg, if_true]
      cases ec : s.closeDone
      · rfl
      · have := t3 eg e (by rw [ec]; rfl)
        rw [e1] at this
        cases this
  · cases eg : s.gone
    · right; left
      simp [phaseOf, eg, e, settled (.inr (.inl e))]
    · have := (hgone eg).1
      rw [e] at this
      simp at this

/-- How far a close is from its report. -/
def rank (s : K) : Nat :=
  4 * n s.armed + (match s.hnd with | .called => 3 | .stopOpenCb => 2 | .stopCloseCb | .tail | .failCb => 1 | .none => 0) +
  4 * n s.closing + (match s.cc with | .closeOpenCb => 3 | .none => 0 | _ => 1)

/-- C113, for the same steps: when a close was accepted and is not yet reported something is in progress, and each step of the child or the
timer, of which there can be no more than 6, brings the report nearer or makes it. -/
theorem C113_close_ends_partial {r : Bool} {s s' : K} {op : Op} {o : Option Nat} {c : Nat} (h : Reach r (fun s op => clean s op ∧ accepts s op) s)
    (hs : spec s.log = some (.closing o c)) (hc : can s op = true) (hp : clean s op) (hi : internal op = true) (e : step r s op = some s') :
    rank s ≤ 6 ∧ (rank s' < rank s ∧ (∃ o', spec s'.log = some (.closing o' c)) ∨ s'.log = s.log ++ [.closeCb c] ∧ o = none) := by
  have hg := Told.next (r := r) (h.mono fun _ _ h => h.1).inv h.told hc hp (by cases op <;> first | trivial | cases hi)
  rw [e] at hg
  have ht := h.told
  have hv := (h.mono fun _ _ h => h.1).inv
  have hf := hv.alive hc
  rw [ht.spec] at hs
  have hg' : GoodT (some s') := hg
  clear h
  obtain ⟨g1, g2, g3⟩ : Told s' := hg'
  clear hg
  obtain ⟨state, ref, lastErr, rx, tx, openDone, closeDone, armed, hnd, child, childRx, childTx, cc, pass, gone, freed, log⟩ := s
  obtain ⟨refs, hfreed, hgone, errLog, okLog, closeOpenCb, called, failCb, stopOpenCb, timed, untimed, inOpen, opened, inClose, childErr, closed, opening, isopen, hpass, settled, isclosing⟩ := hv
  obtain ⟨t1, t2, t3⟩ := ht
  dsimp only at hf
  subst hf
  clear refs hfreed
  simp only [phaseOf] at hs t1
  cases gone <;> simp only [Bool.false_eq_true, if_false, if_true] at hs t1
  rotate_left
  · cases hs
  have t2' := t2 rfl
  cases state <;> simp only [Option.some.injEq, reduceCtorEq] at hs
  all_goals first
    | (cases openDone <;> (simp at hs; done))
    | skip
  all_goals
    simp only [Phase.closing.injEq] at hs
    obtain ⟨rfl, rfl⟩ := hs
    obtain ⟨c, rfl⟩ : ∃ c, closeDone = some c := by cases closeDone <;> simp_all
  all_goals
    refine ⟨?_, ?_⟩
    · clear hc hp e g1 g2 g3
      cases armed <;> cases hnd <;> cases cc <;> first | (exfalso; grind) | (simp [rank, n, K.closing]; done) | (cases child <;> simp [rank, n, K.closing] <;> grind [K.closing])
    · cases op <;> simp only [internal, Bool.false_eq_true] at hi
      case' childCont => cases cc
      case' timerCont => cases hnd
      all_goals simp only [can, step, clean, Bool.false_eq_true, if_false, openDoneCb, closeDoneCb, retryTimeout, reportClose, K.say, unlockDeref] at *
      all_goals try contradiction
      all_goals try (repeat' split at e)
      all_goals try simp only [Option.map_some, Option.map_none, Option.some.injEq, reduceCtorEq] at e
      all_goals try subst e
      all_goals try (exfalso; grind; done)
      all_goals try (right; exact ⟨rfl, rfl⟩)
      all_goals try (right; exact ⟨rfl, by grind⟩)
      all_goals
        left
        refine ⟨?_, _, g1⟩
        simp only [rank, n, K.closing]
        clear g1 g2 g3 t1 t2 t3 t2'
        first | grind | (cases child <;> cases cc <;> cases hnd <;> simp_all <;> done)

/-- The close is accepted and reported after the open. -/
example : (match exec false init [.open 1 5, .close 2 0, .fire, .timeout 0, .timerCont, .timerCont] with
    | .ok s => spec s.log = some .idle && s.log = [.openRet 1 true, .closeRet 2 true, .openCb 1, .closeCb 2] | _ => false) = true := by decide +kernel

/-- The open of the child fails at once, and the user closes in the open callback: the close is accepted and never reported, and the child
is opened. -/
theorem C113_close_lost_violated :
    (match exec false init [.open 1 5, .fire, .timeout 0, .close 2 0, .timerCont, .timerCont, .fire, .timeout 0, .childOpen 0 false false, .childCont] with
      | .ok s => spec s.log = some (.closing none 2) && s.state = .opened && s.child = .opened && s.cc = .none && s.hnd = .none && !s.armed
      | _ => false) = true := by decide +kernel

/-- The child refuses to close: `gensio_close` of the user returns that error and the close is reported all the same. -/
theorem C113_refused_close_violated :
    (match exec false init [.open 1 0, .childOpen 0 false false, .childCont, .close 2 7, .fire, .timeout 0] with
      | .ok s => s.log = [.openRet 1 true, .openCb 1, .closeRet 2 false, .closeCb 2] && spec s.log = none
      | _ => false) = true := by decide +kernel

/-! ## C114 -/

/-- The user does not close, free or disable the gensio. -/
def stays (_ : K) : Op → Prop
  | .close .. | .free _ | .disable => False
  | _ => True

structure Kept (s : K) : Prop where
  never : s.child ≠ .closing true
  state : s.state ≠ .inClose ∧ s.state ≠ .closeStopTimer
  gone : s.gone = false
  cc : s.cc ≠ .closeOpenCb ∧ s.cc ≠ .closeCb
  hnd : s.hnd ≠ .stopOpenCb ∧ s.hnd ≠ .stopCloseCb
  asked : (∃ id, .openRet id true ∈ s.log) ↔ s.state ≠ .closed

def GoodC : Option K → Prop
  | some s => Kept s
  | none => True

theorem goodC_ite {c : Prop} [Decidable c] (x y : Option K) : GoodC (if c then x else y) = if c then GoodC x else GoodC y := by
  split <;> rfl

theorem goodC_some (s : K) : GoodC (some s) = Kept s := rfl

theorem goodC_none : GoodC none = True := rfl

theorem Kept.clean {s : K} {op : Op} (h : Kept s) (hc : can s op = true) (hp : stays s op) : clean s op := by
  cases op <;> first | exact trivial | exact False.elim hp | skip
  simp [can, h.never] at hc

theorem Kept.next {r : Bool} {s : K} {op : Op} (hv : Inv s) (h : Kept s) (hc : can s op = true) (hp : stays s op) : GoodC (step r s op) := by
  have hf : s.freed = false := hv.alive hc
  obtain ⟨h1, h2, h3, h4, h5, h6⟩ := h
  obtain ⟨state, ref, lastErr, rx, tx, openDone, closeDone, armed, hnd, child, childRx, childTx, cc, pass, gone, freed, log⟩ := s
  have hopen := hv.closed
  have ho := hv.opened
  have herr := hv.errLog
  have hok := hv.okLog
  have hfail := hv.failCb
  clear hv
  dsimp only at *
  subst hf h3
  obtain ⟨h2a, h2b⟩ := h2
  obtain ⟨h4a, h4b⟩ := h4
  obtain ⟨h5a, h5b⟩ := h5
  cases op <;> simp only [stays, can, step, Bool.false_eq_true, if_false] at hp hc ⊢
  case «open» id cerr =>
    cases state <;> (try simp [keepnOpen, openChild, startTimer, Gensio.Keepopen.ref, K.say, bind_ite', map_ite', goodC_ite, goodC_some, goodC_none, n]) <;> (repeat' split) <;> (try simp only [Option.bind_some, Option.map_some, Function.comp, goodC_ite, goodC_some, goodC_none]) <;> (repeat' split) <;> (try trivial) <;> (try intros) <;> first | (exfalso; grind; done) | (constructor <;> (try simp) <;> (try grind))
  case setRx b =>
    skip <;> (try simp [K.say, bind_ite', map_ite', goodC_ite, goodC_some, goodC_none, n]) <;> (repeat' split) <;> (try simp only [Option.bind_some, Option.map_some, Function.comp, goodC_ite, goodC_some, goodC_none]) <;> (repeat' split) <;> (try trivial) <;> (try intros) <;> first | (exfalso; grind; done) | (constructor <;> (try simp) <;> (try grind))
  case setTx b =>
    skip <;> (try simp [K.say, bind_ite', map_ite', goodC_ite, goodC_some, goodC_none, n]) <;> (repeat' split) <;> (try simp only [Option.bind_some, Option.map_some, Function.comp, goodC_ite, goodC_some, goodC_none]) <;> (repeat' split) <;> (try trivial) <;> (try intros) <;> first | (exfalso; grind; done) | (constructor <;> (try simp) <;> (try grind))
  case pass =>
    skip <;> (try simp [bind_ite', map_ite', goodC_ite, goodC_some, goodC_none, n]) <;> (repeat' split) <;> (try simp only [Option.bind_some, Option.map_some, Function.comp, goodC_ite, goodC_some, goodC_none]) <;> (repeat' split) <;> (try trivial) <;> (try intros) <;> first | (exfalso; grind; done) | (constructor <;> (try simp) <;> (try grind))
  case write err cerr =>
    cases state <;> cases child <;> (try simp [handleIoErr, closeChild, closeErr, startTimer, Gensio.Keepopen.ref, K.say, bind_ite', map_ite', goodC_ite, goodC_some, goodC_none, n]) <;> (repeat' split) <;> (try simp only [Option.bind_some, Option.map_some, Function.comp, goodC_ite, goodC_some, goodC_none]) <;> (repeat' split) <;> (try trivial) <;> (try intros) <;> first | (exfalso; grind; done) | (constructor <;> (try simp) <;> (try grind))
  case childOpen err rx tx =>
    cases state <;> cases openDone <;> (try simp [openDoneCb, openFinish, openReport, K.say, bind_ite', map_ite', goodC_ite, goodC_some, goodC_none, n]) <;> (repeat' split) <;> (try simp only [Option.bind_some, Option.map_some, Function.comp, goodC_ite, goodC_some, goodC_none]) <;> (repeat' split) <;> (try trivial) <;> (try intros) <;> first | (exfalso; grind; done) | (constructor <;> (try simp) <;> (try grind))
  case childLate err =>
    cases state <;> cases openDone <;> (try simp [openDoneCb, openFinish, openReport, K.say, bind_ite', map_ite', goodC_ite, goodC_some, goodC_none, n]) <;> (repeat' split) <;> (try simp only [Option.bind_some, Option.map_some, Function.comp, goodC_ite, goodC_some, goodC_none]) <;> (repeat' split) <;> (try trivial) <;> (try intros) <;> first | (exfalso; grind; done) | (constructor <;> (try simp) <;> (try grind))
  case childClosed =>
    cases state <;> cases openDone <;> (try simp [closeDoneCb, reportClose, unlockDeref, startTimer, Gensio.Keepopen.ref, K.say, bind_ite', map_ite', goodC_ite, goodC_some, goodC_none, n]) <;> (repeat' split) <;> (try simp only [Option.bind_some, Option.map_some, Function.comp, goodC_ite, goodC_some, goodC_none]) <;> (repeat' split) <;> (try trivial) <;> (try intros) <;> first | (exfalso; grind; done) | (constructor <;> (try simp) <;> (try grind))
  case childErr err cerr =>
    cases state <;> cases child <;> (try simp [handleIoErr, closeChild, closeErr, startTimer, Gensio.Keepopen.ref, K.say, bind_ite', map_ite', goodC_ite, goodC_some, goodC_none, n]) <;> (repeat' split) <;> (try simp only [Option.bind_some, Option.map_some, Function.comp, goodC_ite, goodC_some, goodC_none]) <;> (repeat' split) <;> (try trivial) <;> (try intros) <;> first | (exfalso; grind; done) | (constructor <;> (try simp) <;> (try grind))
  case childCont =>
    cases cc <;> cases openDone <;> (try simp [openFailed, openFinish, openReport, reportClose, unlockDeref, startTimer, Gensio.Keepopen.ref, K.say, bind_ite', map_ite', goodC_ite, goodC_some, goodC_none, n]) <;> (repeat' split) <;> (try simp only [Option.bind_some, Option.map_some, Function.comp, goodC_ite, goodC_some, goodC_none]) <;> (repeat' split) <;> (try trivial) <;> (try intros) <;> first | (exfalso; grind; done) | (constructor <;> (try simp) <;> (try grind))
  case fire =>
    skip <;> (try simp [bind_ite', map_ite', goodC_ite, goodC_some, goodC_none, n]) <;> (repeat' split) <;> (try simp only [Option.bind_some, Option.map_some, Function.comp, goodC_ite, goodC_some, goodC_none]) <;> (repeat' split) <;> (try trivial) <;> (try intros) <;> first | (exfalso; grind; done) | (constructor <;> (try simp) <;> (try grind))
  case timeout cerr =>
    cases state <;> cases openDone <;> cases child <;> cases cerr <;> (try simp [retryTimeout, openChild, failFinish, reportClose, unlockDeref, startTimer, Gensio.Keepopen.ref, K.say, bind_ite', map_ite', goodC_ite, goodC_some, goodC_none, n]) <;> (repeat' split) <;> (try simp only [Option.bind_some, Option.map_some, Function.comp, goodC_ite, goodC_some, goodC_none]) <;> (repeat' split) <;> (try trivial) <;> (try intros) <;> first | (exfalso; grind; done) | (constructor <;> (try simp) <;> (try grind))
  case timerCont =>
    cases hnd <;> (try simp [failFinish, reportClose, unlockDeref, startTimer, Gensio.Keepopen.ref, K.say, bind_ite', map_ite', goodC_ite, goodC_some, goodC_none, n]) <;> (repeat' split) <;> (try simp only [Option.bind_some, Option.map_some, Function.comp, goodC_ite, goodC_some, goodC_none]) <;> (repeat' split) <;> (try trivial) <;> (try intros) <;> first | (exfalso; grind; done) | (constructor <;> (try simp) <;> (try grind))

theorem Reach.kept {r : Bool} {s : K} (h : Reach r stays s) : Inv s ∧ Kept s := by
  induction h with
  | init => exact ⟨Inv.start, by constructor <;> simp [Keepopen.init]⟩
  | @step s s' op h hc hp e ih =>
    have h1 := ih.1.next (r := r) hc (ih.2.clean hc hp)
    have h2 := Kept.next (r := r) ih.1 ih.2 hc hp
    rw [e] at h1 h2
    exact ⟨h1, h2⟩

/-- A step of the child or the timer in which nothing fails. -/
def good : Op → Bool
  | .childOpen err _ _ => err = 0
  | .timeout cerr => cerr = 0
  | .childClosed | .childCont | .fire | .timerCont => true
  | _ => false

/-- How far an open child is away. -/
def away (s : K) : Nat :=
  (match s.state with
    | .childErrClose => 60
    | .openInitFail => if s.armed then 50 else if s.hnd = .called then 40 else 30
    | .childClosed => if s.armed then 20 else 15
    | .inOpen => if s.cc = .errLog then 25 else if s.cc = .okLog then 5 else 10
    | _ => 0) + n (s.cc = .openCb || s.cc = .ioLog) + n (s.hnd = .tail)

/-- C114: as long as the user does not close, free or disable a gensio it opened, no step is a fault and the child is open or a step that
is to come brings it nearer to being open. -/
theorem C114_stays_open {r : Bool} {s : K} {id : Nat} (h : Reach r stays s) (ho : .openRet id true ∈ s.log) :
    (∀ op, can s op = true → stays s op → (step r s op).isSome = true) ∧
    (s.state = .opened ∧ s.child = .opened ∨ ∃ op, good op = true ∧ can s op = true) := by
  obtain ⟨hi, hk⟩ := h.kept
  refine ⟨fun op hc hp => ?_, ?_⟩
  · have h1 := hi.next (r := r) hc (hk.clean hc hp)
    cases e : step r s op with
    | none => rw [e] at h1; exact h1.elim
    | some s' => rfl
  · have hs := hk.asked.mp ⟨id, ho⟩
    have hfr : s.freed = false := by
      cases e : s.freed
      · rfl
      · have := hi.dead e
        rw [hk.gone] at this
        simp at this
    obtain ⟨k1, ⟨k2, k3⟩, k4, ⟨k5, k6⟩, ⟨k7, k8⟩, k9⟩ := hk
    by_cases hcc : s.cc = .none
    · cases e : s.state <;> simp only [e, ne_eq, not_true, reduceCtorEq, not_false_iff] at hs k2 k3
      · have := hi.inOpen e
        right
        exact ⟨.childOpen 0 false false, rfl, by rw [hcc] at this; simp [can, hfr, hcc]; simpa using this⟩
      · obtain ⟨ht, h1 | h1 | h1 | h1⟩ := hi.timed (.inl e)
        · by_cases hh : s.hnd = .none
          · exact .inr ⟨.fire, rfl, by simp [can, h1, hh]⟩
          · by_cases hh' : s.hnd = .called
            · exact .inr ⟨.timeout 0, rfl, by simp [can, hh']⟩
            · exact .inr ⟨.timerCont, rfl, by simp [can, hh, hh']⟩
        · exact .inr ⟨.timeout 0, rfl, by simp [can, h1]⟩
        · exact .inr ⟨.timerCont, rfl, by simp [can, h1]⟩
        · exact absurd h1 k7
      · exact .inl ⟨rfl, hi.opened e⟩
      · have := hi.childErr e
        right
        exact ⟨.childClosed, rfl, by simp [can, hfr, hcc]; simpa [K.closing] using this⟩
      · obtain ⟨ht, h1 | h1 | h1 | h1⟩ := hi.timed (.inr (.inl e))
        · by_cases hh : s.hnd = .none
          · exact .inr ⟨.fire, rfl, by simp [can, h1, hh]⟩
          · by_cases hh' : s.hnd = .called
            · exact .inr ⟨.timeout 0, rfl, by simp [can, hh']⟩
            · exact .inr ⟨.timerCont, rfl, by simp [can, hh, hh']⟩
        · exact .inr ⟨.timeout 0, rfl, by simp [can, h1]⟩
        · exact .inr ⟨.timerCont, rfl, by simp [can, h1]⟩
        · exact absurd h1 k7
    · exact .inr ⟨.childCont, rfl, by simp [can, hcc]⟩

def GoodA (a : Nat) : Option K → Prop
  | some s => away s < a
  | none => True

theorem goodA_ite {c : Prop} [Decidable c] (a : Nat) (x y : Option K) : GoodA a (if c then x else y) = if c then GoodA a x else GoodA a y := by
  split <;> rfl

theorem goodA_some (a : Nat) (s : K) : GoodA a (some s) = (away s < a) := rfl

theorem goodA_none (a : Nat) : GoodA a none = True := rfl

set_option maxHeartbeats 2000000 in
theorem away_next {r : Bool} {s : K} {op : Op} (hi : Inv s) (hk : Kept s) (hc : can s op = true) (hg : good op = true) : GoodA (away s) (step r s op) := by
  have hf : s.freed = false := hi.alive hc
  obtain ⟨h1, h2, h3, h4, h5, h6⟩ := hk
  obtain ⟨state, ref, lastErr, rx, tx, openDone, closeDone, armed, hnd, child, childRx, childTx, cc, pass, gone, freed, log⟩ := s
  obtain ⟨refs, hfreed, hgone, errLog, okLog, closeOpenCb, called, failCb, stopOpenCb, timed, untimed, inOpen, opened, inClose, childErr, closed, opening, isopen, hpass, settled, isclosing⟩ := hi
  clear refs hfreed closeOpenCb stopOpenCb inClose isopen isclosing hpass h6
  dsimp only at *
  subst hf h3
  clear hgone
  cases op <;> simp only [good, can, step, Bool.false_eq_true, if_false] at hg hc ⊢
  case childOpen err rx tx =>
    cases state <;> cases openDone <;> cases err <;> (try simp [openDoneCb, openFinish, openReport, K.say, bind_ite', map_ite', goodA_ite, goodA_some, goodA_none]) <;> (repeat' split) <;> (try simp only [Option.bind_some, Option.map_some, Function.comp, goodA_ite, goodA_some, goodA_none]) <;> (repeat' split) <;> (try trivial) <;> (try intros) <;> first | (exfalso; grind; done) | (simp [away, n] <;> grind)
  case childClosed =>
    cases state <;> cases openDone <;> (try simp [closeDoneCb, reportClose, unlockDeref, startTimer, Gensio.Keepopen.ref, K.say, bind_ite', map_ite', goodA_ite, goodA_some, goodA_none]) <;> (repeat' split) <;> (try simp only [Option.bind_some, Option.map_some, Function.comp, goodA_ite, goodA_some, goodA_none]) <;> (repeat' split) <;> (try trivial) <;> (try intros) <;> first | (exfalso; grind; done) | (simp [away, n] <;> grind)
  case childCont =>
    cases cc <;> cases openDone <;> (try simp [openFailed, openFinish, openReport, reportClose, unlockDeref, startTimer, Gensio.Keepopen.ref, K.say, bind_ite', map_ite', goodA_ite, goodA_some, goodA_none]) <;> (repeat' split) <;> (try simp only [Option.bind_some, Option.map_some, Function.comp, goodA_ite, goodA_some, goodA_none]) <;> (repeat' split) <;> (try trivial) <;> (try intros) <;> first | (exfalso; grind; done) | (simp [away, n] <;> grind)
  case fire =>
    cases state <;> (try simp [bind_ite', map_ite', goodA_ite, goodA_some, goodA_none]) <;> (repeat' split) <;> (try simp only [Option.bind_some, Option.map_some, Function.comp, goodA_ite, goodA_some, goodA_none]) <;> (repeat' split) <;> (try trivial) <;> (try intros) <;> first | (exfalso; grind; done) | (simp [away, n] <;> grind)
  case timeout cerr =>
    cases state <;> cases openDone <;> cases child <;> cases cerr <;> (try simp [retryTimeout, openChild, failFinish, reportClose, unlockDeref, startTimer, Gensio.Keepopen.ref, K.say, bind_ite', map_ite', goodA_ite, goodA_some, goodA_none]) <;> (repeat' split) <;> (try simp only [Option.bind_some, Option.map_some, Function.comp, goodA_ite, goodA_some, goodA_none]) <;> (repeat' split) <;> (try trivial) <;> (try intros) <;> first | (exfalso; grind; done) | (simp [away, n] <;> grind)
  case timerCont =>
    cases hnd <;> (try simp [failFinish, reportClose, unlockDeref, startTimer, Gensio.Keepopen.ref, K.say, bind_ite', map_ite', goodA_ite, goodA_some, goodA_none]) <;> (repeat' split) <;> (try simp only [Option.bind_some, Option.map_some, Function.comp, goodA_ite, goodA_some, goodA_none]) <;> (repeat' split) <;> (try trivial) <;> (try intros) <;> first | (exfalso; grind; done) | (simp [away, n] <;> grind)

/-- C114: the child is open again after no more than 62 such steps. -/
theorem C114_reopens {r : Bool} {s s' : K} {op : Op} (h : Reach r stays s) (hc : can s op = true) (hg : good op = true)
    (e : step r s op = some s') : away s ≤ 62 ∧ away s' < away s := by
  refine ⟨?_, ?_⟩
  · simp only [away, n]
    cases s.state <;> simp only <;> (repeat' split) <;> omega
  · have := away_next (r := r) h.kept.1 h.kept.2 hc hg
    rw [e] at this
    exact this

/-- A session in which everything fails once; five steps bring the child back. -/
example : (match exec false init [.open 1 5, .fire, .timeout 0, .timerCont, .timerCont, .fire, .timeout 6, .fire, .timeout 0, .childOpen 7 false false] with
    | .ok s => away s = 25 && (match exec false s [.childCont, .fire, .timeout 0, .childOpen 0 false false, .childCont] with
      | .ok s => s.state = .opened && s.child = .opened && away s = 0 | _ => false)
    | _ => false) = true := by decide +kernel

/-! ## C115 -/

/-- C115, for steps that are `clean`: the references are those of the user, the timer and the close of the child, and the memory is freed
when the last one is given up. -/
theorem C115_refs_partial {r : Bool} {s : K} (h : Reach r clean s) : s.ref = s.owners ∧ (s.freed = true ↔ s.owners = 0) :=
  ⟨h.inv.refs, by rw [h.inv.freed, h.inv.refs]⟩

def GoodR (a : Nat) : Option K → Prop
  | some s => rank s < a
  | none => True

theorem goodR_ite {c : Prop} [Decidable c] (a : Nat) (x y : Option K) : GoodR a (if c then x else y) = if c then GoodR a x else GoodR a y := by
  split <;> rfl

theorem goodR_some (a : Nat) (s : K) : GoodR a (some s) = (rank s < a) := rfl

theorem goodR_none (a : Nat) : GoodR a none = True := rfl

set_option maxHeartbeats 2000000 in
theorem rank_next {r : Bool} {s : K} {op : Op} (hv : Inv s) (hg : s.gone = true) (hc : can s op = true) (hp : clean s op) (hi : internal op = true) :
    GoodR (rank s) (step r s op) := by
  have hf : s.freed = false := hv.alive hc
  obtain ⟨state, ref, lastErr, rx, tx, openDone, closeDone, armed, hnd, child, childRx, childTx, cc, pass, gone, freed, log⟩ := s
  obtain ⟨refs, hfreed, hgone, errLog, okLog, closeOpenCb, called, failCb, stopOpenCb, timed, untimed, inOpen, opened, inClose, childErr, closed, opening, isopen, hpass, settled, isclosing⟩ := hv
  clear refs hfreed isopen isclosing hpass
  dsimp only at *
  subst hf hg
  obtain ⟨g1, rfl, g3, g4, g5, g6, g7, g8⟩ := hgone rfl
  obtain rfl : child = .closed := by
    rcases g1 with h | h
    · exact (closed h).1
    · exact (timed (.inr (.inr h))).1
  cases op <;> simp only [internal, can, clean, step, Bool.false_eq_true, if_false] at hi hp hc ⊢
  case childOpen err rx tx =>
    cases state <;> (try simp [openDoneCb, openFinish, openReport, K.say, bind_ite', map_ite', goodR_ite, goodR_some, goodR_none]) <;> (repeat' split) <;> (try simp only [bind_ite', map_ite', Option.bind_some, Option.map_some, Option.bind_none, Option.map_none, Function.comp, goodR_ite, goodR_some, goodR_none]) <;> (repeat' split) <;> (try trivial) <;> (try intros) <;> first | (exfalso; grind; done) | (simp [rank, n, K.closing] <;> grind)
  case childClosed =>
    cases state <;> cases closeDone <;> (try simp [closeDoneCb, reportClose, unlockDeref, startTimer, Gensio.Keepopen.ref, K.say, bind_ite', map_ite', goodR_ite, goodR_some, goodR_none]) <;> (repeat' split) <;> (try simp only [bind_ite', map_ite', Option.bind_some, Option.map_some, Option.bind_none, Option.map_none, Function.comp, goodR_ite, goodR_some, goodR_none]) <;> (repeat' split) <;> (try trivial) <;> (try intros) <;> first | (exfalso; grind; done) | (simp [rank, n, K.closing] <;> grind)
  case childCont =>
    cases cc <;> cases closeDone <;> (try simp [openFailed, openFinish, openReport, reportClose, unlockDeref, startTimer, Gensio.Keepopen.ref, K.say, bind_ite', map_ite', goodR_ite, goodR_some, goodR_none]) <;> (repeat' split) <;> (try simp only [bind_ite', map_ite', Option.bind_some, Option.map_some, Option.bind_none, Option.map_none, Function.comp, goodR_ite, goodR_some, goodR_none]) <;> (repeat' split) <;> (try trivial) <;> (try intros) <;> first | (exfalso; grind; done) | (simp [rank, n, K.closing] <;> grind)
  case fire =>
    cases state <;> (try simp [bind_ite', map_ite', goodR_ite, goodR_some, goodR_none]) <;> (repeat' split) <;> (try simp only [bind_ite', map_ite', Option.bind_some, Option.map_some, Option.bind_none, Option.map_none, Function.comp, goodR_ite, goodR_some, goodR_none]) <;> (repeat' split) <;> (try trivial) <;> (try intros) <;> first | (exfalso; grind; done) | (simp [rank, n, K.closing] <;> grind)
  case timeout cerr =>
    cases state <;> cases closeDone <;> (try simp [retryTimeout, openChild, failFinish, reportClose, unlockDeref, startTimer, Gensio.Keepopen.ref, K.say, bind_ite', map_ite', goodR_ite, goodR_some, goodR_none]) <;> (repeat' split) <;> (try simp only [bind_ite', map_ite', Option.bind_some, Option.map_some, Option.bind_none, Option.map_none, Function.comp, goodR_ite, goodR_some, goodR_none]) <;> (repeat' split) <;> (try trivial) <;> (try intros) <;> first | (exfalso; grind; done) | (simp [rank, n, K.closing] <;> grind)
  case timerCont =>
    cases hnd <;> cases closeDone <;> (try simp [failFinish, reportClose, unlockDeref, startTimer, Gensio.Keepopen.ref, K.say, bind_ite', map_ite', goodR_ite, goodR_some, goodR_none]) <;> (repeat' split) <;> (try simp only [bind_ite', map_ite', Option.bind_some, Option.map_some, Option.bind_none, Option.map_none, Function.comp, goodR_ite, goodR_some, goodR_none]) <;> (repeat' split) <;> (try trivial) <;> (try intros) <;> first | (exfalso; grind; done) | (simp [rank, n, K.closing] <;> grind)

/-- C115, for steps that are `clean`: after `gensio_free` each step of the child or the timer brings the end nearer, and when nothing is in
progress the memory has been freed. -/
theorem C115_free_ends_partial {r : Bool} {s : K} (h : Reach r clean s) (hg : s.gone = true) :
    (quiet s → s.freed = true) ∧
    ∀ op s', can s op = true → clean s op → internal op = true → step r s op = some s' → rank s' < rank s := by
  refine ⟨fun hq => ?_, fun op s' hc hp hi e => ?_⟩
  · have hv := h.inv
    have q1 := hq .childCont rfl
    have q2 := hq .fire rfl
    have q3 := hq (.timeout 0) rfl
    have q4 := hq .timerCont rfl
    have e1 : s.cc = .none := by simpa [can] using q1
    have e2 : s.hnd = .none := by
      cases e : s.hnd <;> simp_all [can]
    have e3 : s.armed = false := by simpa [can, e2] using q2
    have e4 : s.child = .closed := by
      rcases (hv.gone hg).1 with h | h
      · exact (hv.closed h).1
      · exact (hv.timed (.inr (.inr h))).1
    rw [hv.freed, hv.refs]
    simp [K.owners, n, K.handling, K.closing, K.reporting, e1, e2, e3, e4, hg]
  · have := rank_next (r := r) h.inv hg hc hp hi
    rw [e] at this
    exact this

theorem exec_append (r : Bool) (s : K) (a b : List Op) :
    exec r s (a ++ b) = match exec r s a with | .ok s' => exec r s' b | x => x := by
  induction a generalizing s with
  | nil => rfl
  | cons op a ih =>
    simp only [List.cons_append, exec]
    split
    · cases step r s op with
      | none => rfl
      | some s' => exact ih s'
    · rfl

/-- The open of the child fails at once, and the user frees the gensio in the open callback: the gensio is not freed and goes on trying to
open the child for ever if that fails. -/
theorem C115_freed_retries_violated (k : Nat) :
    ∃ s, exec false init ([.open 1 5, .fire, .timeout 0, .free 0, .timerCont, .timerCont] ++ (List.replicate k [Op.fire, .timeout 5]).flatten) = .ok s ∧
      s.gone = true ∧ s.freed = false ∧ s.armed = true := by
  have h0 : exec false init [.open 1 5, .fire, .timeout 0, .free 0, .timerCont, .timerCont] = .ok { init with state := .childClosed, lastErr := 5, armed := true, gone := true, log := [.openRet 1 true, .openCb 1, .free] } := by decide +kernel
  refine ⟨{ init with state := .childClosed, lastErr := 5, armed := true, gone := true, log := [.openRet 1 true, .openCb 1, .free] }, ?_, rfl, rfl, rfl⟩
  rw [exec_append, h0]
  dsimp only
  induction k with
  | zero => rfl
  | succ k ih =>
    rw [List.replicate_succ, List.flatten_cons, exec_append]
    have h1 : ∀ s : K, s = { init with state := .childClosed, lastErr := 5, armed := true, gone := true, log := [.openRet 1 true, .openCb 1, .free] } →
        exec false s [.fire, .timeout 5] = .ok s := by
      intro s hs
      subst hs
      decide +kernel
    rw [h1 _ rfl]
    exact ih

/-! ## C116 -/

/-- What the user asked for last. -/
def lastRx (l : List Ev) : Bool := l.foldl (fun b e => match e with | .setRx b' => b' | _ => b) false
def lastTx (l : List Ev) : Bool := l.foldl (fun b e => match e with | .setTx b' => b' | _ => b) false

theorem lastRx_say (l : List Ev) (e : Ev) : lastRx (l ++ [e]) = match e with | .setRx b => b | _ => lastRx l := by
  simp only [lastRx, List.foldl_append, List.foldl_cons, List.foldl_nil]

theorem lastTx_say (l : List Ev) (e : Ev) : lastTx (l ++ [e]) = match e with | .setTx b => b | _ => lastTx l := by
  simp only [lastTx, List.foldl_append, List.foldl_cons, List.foldl_nil]

/-- Nothing of what C116 is about changes, and the state does not become OPEN. -/
structure Keep (s t : K) : Prop where
  rx : t.rx = s.rx
  tx : t.tx = s.tx
  pass : t.pass = s.pass
  crx : t.childRx = s.childRx
  ctx : t.childTx = s.childTx
  lrx : lastRx t.log = lastRx s.log
  ltx : lastTx t.log = lastTx s.log
  st : t.state = .opened → s.state = .opened

theorem Keep.trans {a b c : K} (h : Keep a b) (k : Keep b c) : Keep a c :=
  ⟨k.rx.trans h.rx, k.tx.trans h.tx, k.pass.trans h.pass, k.crx.trans h.crx, k.ctx.trans h.ctx, k.lrx.trans h.lrx, k.ltx.trans h.ltx, fun e => h.st (k.st e)⟩

theorem keep_ref {s t : K} (e : ref s = some t) : Keep s t := by
  simp only [ref] at e
  split at e <;> cases e
  constructor <;> first | rfl | exact id

theorem keep_deref {s t : K} (e : deref s = some t) : Keep s t := by
  simp only [deref] at e
  split at e <;> cases e
  constructor <;> first | rfl | exact id

theorem keep_unlock {s t : K} (e : unlockDeref s = some t) : Keep s t := by
  simp only [unlockDeref] at e
  repeat' split at e
  all_goals cases e
  all_goals constructor <;> first | rfl | exact id

theorem keep_start {s t : K} (e : startTimer s = some t) : Keep s t := by
  simp only [startTimer, Option.bind_eq_some_iff] at e
  obtain ⟨u, h1, h2⟩ := e
  split at h2 <;> cases h2
  exact (keep_ref h1).trans (by constructor <;> first | rfl | exact id)

theorem keep_cancel {s t : K} (e : cancelTimer s = some t) : Keep s t := by
  simp only [cancelTimer] at e
  split at e
  · simp only [Option.bind_eq_some_iff] at e
    obtain ⟨u, h1, h2⟩ := e
    exact (Keep.trans (by constructor <;> first | rfl | exact id) (keep_start h1)).trans (keep_deref h2)
  · cases e
    constructor <;> first | rfl | exact id

theorem keep_report (s : K) : Keep s (openReport s) := by
  unfold openReport
  split <;> constructor <;> first | rfl | exact id | simp [K.say, lastRx_say, lastTx_say]

theorem keep_reportClose (s : K) : Keep s (reportClose s) := by
  unfold reportClose
  split <;> constructor <;> first | rfl | exact id | simp [K.say, lastRx_say, lastTx_say]

/-- A change of other fields, and a line in the log. -/
macro "keep" : tactic => `(tactic| (constructor <;> first | rfl | exact id | (simp [K.say, lastRx_say, lastTx_say]; done) | (simp_all [K.say]; done)))

theorem keep_fail {s t : K} (e : failFinish s = some t) : Keep s t := by
  simp only [failFinish, Option.map_eq_some_iff, Option.bind_eq_some_iff] at e
  obtain ⟨u, ⟨v, h1, h2⟩, rfl⟩ := e
  exact ((Keep.trans (by keep) (keep_start h1)).trans (keep_unlock h2)).trans (by keep)

theorem keep_ioErr {s t : K} {err cerr : Nat} (e : handleIoErr s err cerr = some t) : Keep s t := by
  simp only [handleIoErr] at e
  split at e
  · cases e
    keep
  · split at e
    · exact Keep.trans (by keep) (keep_ref e)
    · simp only [Option.map_eq_some_iff] at e
      obtain ⟨u, h1, rfl⟩ := e
      exact (Keep.trans (by keep) (keep_start h1)).trans (by keep)

theorem keep_open {s t : K} {id cerr : Nat} (e : keepnOpen s id cerr = some t) : Keep s t := by
  simp only [keepnOpen] at e
  split at e
  · cases e
    keep
  · split at e
    · simp only [Option.map_eq_some_iff] at e
      obtain ⟨u, h1, rfl⟩ := e
      exact (Keep.trans (by keep) (keep_start h1)).trans (by keep)
    · rename_i u h1
      simp only [openChild] at h1
      split at h1 <;> cases h1
      cases e
      keep

theorem keep_close {s t : K} {id cerr : Nat} (e : keepnClose s id cerr = some t) : Keep s t := by
  simp only [keepnClose] at e
  split at e
  · split at e
    · exact Keep.trans (by keep) (keep_ref e)
    · exact Keep.trans (by keep) (keep_start e)
  · split at e
    · exact Keep.trans (by keep) (keep_ref e)
    · exact Keep.trans (by keep) (keep_start e)
  · cases e
    keep
  · cases e
    keep
  · simp only [Option.map_eq_some_iff] at e
    obtain ⟨u, h1, rfl⟩ := e
    exact (Keep.trans (by keep) (keep_cancel h1)).trans (by keep)
  · cases e
    keep

theorem keep_free {r : Bool} {s t : K} {cerr : Nat} (e : keepnFree r s cerr = some t) : Keep s t := by
  simp only [keepnFree] at e
  split at e
  iterate 5 exact Keep.trans (by keep) (keep_unlock e)
  iterate 2
    · split at e
      · simp only [Option.bind_eq_some_iff, freeClose] at e
        obtain ⟨u, h1, h2⟩ := e
        split at h1
        · exact ((Keep.trans (by keep) (keep_ref h1)).trans (by keep)).trans (keep_unlock h2)
        · exact ((Keep.trans (by keep) (keep_start h1)).trans (by keep)).trans (keep_unlock h2)
      · cases e
  · simp only [Option.bind_eq_some_iff] at e
    obtain ⟨u, h1, h2⟩ := e
    exact (Keep.trans (by keep) (keep_cancel h1)).trans (keep_unlock h2)

theorem keep_closeDone {s t : K} (e : closeDoneCb s = some t) : Keep s t := by
  simp only [closeDoneCb] at e
  split at e
  · split at e
    · cases e
      keep
    · cases e
      exact (keep_reportClose s).trans (by keep)
  · simp only [Option.bind_eq_some_iff] at e
    obtain ⟨u, h1, h2⟩ := e
    exact (Keep.trans (by keep) (keep_start h1)).trans (keep_unlock h2)
  · cases e

theorem keep_timeout {s t : K} {cerr : Nat} (e : retryTimeout s cerr = some t) : Keep s t := by
  simp only [retryTimeout] at e
  split at e
  · split at e
    · cases e
      keep
    · exact keep_fail e
  · split at e
    · simp only [Option.map_eq_some_iff, Option.bind_eq_some_iff] at e
      obtain ⟨u, ⟨v, h1, h2⟩, rfl⟩ := e
      exact ((keep_start h1).trans (keep_unlock h2)).trans (by keep)
    · rename_i u h1
      simp only [openChild] at h1
      split at h1 <;> cases h1
      simp only [Option.map_eq_some_iff] at e
      obtain ⟨v, h2, rfl⟩ := e
      exact (Keep.trans (by keep) (keep_unlock h2)).trans (by keep)
  · split at e
    · cases e
      keep
    · cases e
      exact (keep_reportClose s).trans (by keep)
  · cases e

structure Enab (s : K) : Prop where
  rx : s.rx = lastRx s.log
  tx : s.tx = lastTx s.log
  passRx : ∀ b, s.pass = some (false, b) → s.rx = b
  passTx : ∀ b, s.pass = some (true, b) → s.tx = b
  childRx : s.state = .opened → (∀ b, s.pass ≠ some (false, b)) → s.childRx = s.rx
  childTx : s.state = .opened → (∀ b, s.pass ≠ some (true, b)) → s.childTx = s.tx

theorem Enab.keep {s t : K} (h : Enab s) (k : Keep s t) : Enab t :=
  ⟨by rw [k.rx, k.lrx, h.rx], by rw [k.tx, k.ltx, h.tx], by rw [k.pass, k.rx]; exact h.passRx, by rw [k.pass, k.tx]; exact h.passTx,
    fun e => by rw [k.pass, k.rx, k.crx]; exact h.childRx (k.st e), fun e => by rw [k.pass, k.tx, k.ctx]; exact h.childTx (k.st e)⟩

theorem Enab.finish {s : K} (h : Enab s) : Enab (openFinish s) :=
  Enab.keep (s := { s with childTx := s.tx, childRx := s.rx, state := .opened }) ⟨h.rx, h.tx, h.passRx, h.passTx, fun _ _ => rfl, fun _ _ => rfl⟩ (keep_report _)

theorem Enab.openDone {s t : K} {err : Nat} {rx tx : Bool} {c : Child} (h : Enab s)
    (e : openDoneCb { s with child := c, childRx := rx, childTx := tx } err = some t) : Enab t := by
  simp only [openDoneCb] at e
  split at e
  · rename_i hs
    have h' : Enab { s with child := c, childRx := rx, childTx := tx } :=
      ⟨h.rx, h.tx, h.passRx, h.passTx, fun e => by simp [hs] at e, fun e => by simp [hs] at e⟩
    repeat' split at e
    · cases e
      exact h'.keep (by keep)
    · cases e
      exact h'.keep (by keep)
    · cases e
      exact h'.finish
  · cases e

theorem Enab.next {r : Bool} {s s' : K} {op : Op} (h : Enab s) (hc : can s op = true) (e : step r s op = some s') : Enab s' := by
  simp only [step] at e
  split at e
  · cases e
  cases op with
  | «open» id cerr => exact h.keep (keep_open e)
  | close id cerr => exact h.keep (keep_close e)
  | free cerr => exact h.keep (keep_free e)
  | disable =>
    cases e
    exact h.keep (by keep)
  | setRx b =>
    cases e
    have hp : s.pass = none := by simp [can] at hc; exact hc.2
    refine ⟨by simp [K.say, lastRx_say], by simp [K.say, lastTx_say, h.tx], by simp, by simp, by simp, ?_⟩
    intro ho _
    exact h.childTx ho (by simp [hp])
  | setTx b =>
    cases e
    have hp : s.pass = none := by simp [can] at hc; exact hc.2
    refine ⟨by simp [K.say, lastRx_say, h.rx], by simp [K.say, lastTx_say], by simp, by simp, ?_, by simp⟩
    intro ho _
    exact h.childRx ho (by simp [hp])
  | pass =>
    dsimp only at e
    split at e
    · rename_i b hp
      cases e
      refine ⟨h.rx, h.tx, by simp, by simp, fun _ _ => (h.passRx b hp).symm, fun ho _ => h.childTx ho (by simp [hp])⟩
    · rename_i b hp
      cases e
      refine ⟨h.rx, h.tx, by simp, by simp, fun ho _ => h.childRx ho (by simp [hp]), fun _ _ => (h.passTx b hp).symm⟩
    · cases e
      exact h
  | write err cerr => exact h.keep (keep_ioErr e)
  | childOpen err rx tx => exact h.openDone e
  | childLate err => exact h.openDone (rx := s.childRx) (tx := s.childTx) e
  | childClosed => exact h.keep (Keep.trans (by keep) (keep_closeDone e))
  | childErr err cerr =>
    simp only [Option.map_eq_some_iff] at e
    obtain ⟨u, h1, rfl⟩ := e
    refine h.keep ((keep_ioErr h1).trans ?_)
    split <;> keep
  | childCont =>
    dsimp only at e
    split at e
    · cases e
      exact h
    · simp only [openFailed, Option.map_eq_some_iff] at e
      obtain ⟨u, h1, rfl⟩ := e
      exact h.keep ((Keep.trans (by keep) (keep_start h1)).trans (keep_report u))
    · cases e
      exact h.finish
    · cases e
      exact h.keep (by keep)
    · cases e
      exact h.keep (by keep)
    · cases e
      exact h.keep ((keep_reportClose s).trans (by keep))
    · simp only [Option.map_eq_some_iff] at e
      obtain ⟨u, h1, rfl⟩ := e
      exact h.keep ((keep_unlock h1).trans (by keep))
  | fire =>
    cases e
    exact h.keep (by keep)
  | timeout cerr => exact h.keep (keep_timeout e)
  | timerCont =>
    dsimp only at e
    split at e
    · cases e
      exact h
    · cases e
      exact h
    · exact h.keep (keep_fail e)
    · cases e
      exact h.keep ((keep_reportClose s).trans (by keep))
    · simp only [Option.map_eq_some_iff] at e
      obtain ⟨u, h1, rfl⟩ := e
      exact h.keep ((keep_unlock h1).trans (by keep))
    · cases e
      exact h.keep (by keep)

/-- C116: whenever the child is open and the user is not in a call that sets an enable, the enables of the child are those the user asked
for last. -/
theorem C116_enables {r : Bool} {s : K} (h : Reach r (fun _ _ => True) s) (ho : s.state = .opened) (hp : s.pass = none) :
    s.childRx = lastRx s.log ∧ s.childTx = lastTx s.log := by
  have he : Enab s := by
    clear ho hp
    induction h with
    | init => constructor <;> simp [Keepopen.init, lastRx, lastTx]
    | step op _ hc _ e ih =>
      exact ih.next hc e
  rw [← he.rx, ← he.tx]
  exact ⟨he.childRx ho (by simp [hp]), he.childTx ho (by simp [hp])⟩

/-- The enables are set while the child is closed and while its second open is reported. -/
example : (match exec false init [.open 1 0, .childOpen 0 false false, .childCont, .setRx true, .pass, .childErr 5 0, .childCont, .childClosed, .setTx true, .pass, .fire,
      .timeout 0, .childOpen 0 false false, .setRx false, .childCont, .pass, .setRx true, .pass] with
    | .ok s => s.state = .opened && s.childRx && s.childTx && lastRx s.log && lastTx s.log | _ => false) = true := by decide +kernel

/-! ## C117 -/

/-- C117, for a caller that gives a `count`: a write never fails; the count is that of the child, or if the child failed 0, or with
`discard-badwrites` all there is to write. -/
theorem C117_write_partial (discard : Bool) (err cnt : Nat) (lens : List Nat) (h : lens.sum < 18446744073709551616) :
    writeSg discard (err, cnt) lens true = some (0, some (if err = 0 then cnt else if discard then lens.sum else 0)) := by
  have hs : ∀ (l : List Nat) (a : Nat), a + l.sum < 18446744073709551616 → l.foldl (fun a n => (a + n) % 18446744073709551616) a = a + l.sum := by
    intro l
    induction l with
    | nil => intro a _; simp
    | cons x l ih =>
      intro a ha
      simp only [List.sum_cons] at ha
      simp only [List.foldl_cons, List.sum_cons]
      rw [Nat.mod_eq_of_lt (by omega), ih _ (by omega)]
      omega
  have h0 := hs lens 0 (by omega)
  unfold writeSg
  by_cases he : err = 0
  · simp [he]
  · cases discard
    · simp [he]
    · simp only [ne_eq, he, not_false_eq_true, if_true, if_false, h0, Nat.zero_add]

example : writeSg true (9, 0) [3, 4] true = some (0, some 7) ∧ writeSg false (9, 0) [3, 4] true = some (0, some 0) ∧
    writeSg true (0, 5) [3, 4] true = some (0, some 5) ∧ writeSg true (0, 5) [3, 4] false = some (0, none) := by decide +kernel

/-- `count` may be NULL, `gensio_write(3)`, and is written through if the child fails. -/
theorem C117_null_count_violated (discard : Bool) (err cnt : Nat) (lens : List Nat) (h : err ≠ 0) : writeSg discard (err, cnt) lens false = none := by
  simp [writeSg, h]

/-! ## C118 -/

/-- C118: the error of the child is kept, and a second report changes nothing. -/
theorem C118_error_kept_partial {s s' : K} {err cerr : Nat} (e : handleIoErr s err cerr = some s') :
    (s.state = .opened → s'.lastErr = err ∧ ∃ l, s'.log = s.log ++ [.ioErr err l]) ∧ (s.state ≠ .opened → s' = s) := by
  simp only [handleIoErr] at e
  split at e
  · cases e
    exact ⟨fun h => absurd h ‹_›, fun _ => rfl⟩
  · rename_i hs
    refine ⟨fun _ => ?_, fun h => absurd h hs⟩
    split at e
    · simp only [ref] at e
      split at e <;> cases e
      exact ⟨rfl, _, rfl⟩
    · simp only [Option.map_eq_some_iff, startTimer, ref, Option.bind_eq_some_iff] at e
      obtain ⟨u, ⟨v, h1, h2⟩, rfl⟩ := e
      split at h1 <;> cases h1
      split at h2 <;> cases h2
      exact ⟨rfl, _, rfl⟩

/-- C118: what is logged is not the error of the child but the answer of `gensio_close`: "no error" if the close was accepted. -/
theorem C118_logged_violated {s s' : K} {err cerr : Nat} (hs : s.state = .opened) (hc : s.child = .opened) (e : handleIoErr s err cerr = some s') :
    s'.log = s.log ++ [.ioErr err cerr] := by
  simp only [handleIoErr, hs, hc, closeChild, closeErr, K.say] at e
  by_cases h : cerr = 0
  · simp only [h, if_true, ref, ne_eq, not_true, if_false] at e
    split at e <;> cases e
    simp [h]
  · simp only [h, if_false, ne_eq, not_true, Bool.false_eq_true, Option.map_eq_some_iff, startTimer, ref, Option.bind_eq_some_iff] at e
    obtain ⟨u, ⟨v, h1, h2⟩, rfl⟩ := e
    split at h1 <;> cases h1
    split at h2 <;> cases h2
    rfl

example : (match exec false init [.open 1 0, .childOpen 0 false false, .childCont, .childErr 5 0] with
    | .ok s => s.log = [.openRet 1 true, .openCb 1, .ioErr 5 0] && s.lastErr = 5 | _ => false) = true := by decide +kernel

/-- C118: a failed open of the child keeps its error; a successful one is logged as restored exactly if an error is kept; an open of the user that the
child accepts forgets the error, and one that it refuses keeps the answer. -/
theorem C118_restored_partial {s s' : K} :
    (∀ err, s.state = .inOpen → openDoneCb s err = some s' → (err ≠ 0 → s'.lastErr = err ∧ s'.cc = .errLog) ∧ (err = 0 → (s'.cc = .okLog ↔ s.lastErr ≠ 0))) ∧
    (∀ id cerr, s.state = .closed → keepnOpen s id cerr = some s' → (s'.state = .inOpen ∧ s'.lastErr = 0) ∨ (s'.state = .openInitFail ∧ s'.lastErr ≠ 0)) := by
  constructor
  · intro err hs e
    simp only [openDoneCb, hs] at e
    split at e
    · cases e
      exact ⟨fun _ => ⟨rfl, rfl⟩, fun h => absurd h ‹_›⟩
    · refine ⟨fun h => absurd h ‹_›, fun _ => ?_⟩
      split at e
      · cases e
        exact ⟨fun _ => ‹_›, fun _ => rfl⟩
      · cases e
        refine ⟨fun h => ?_, fun h => absurd h ‹_›⟩
        simp only [openFinish, openReport] at h
        split at h <;> cases h
  · intro id cerr hs e
    simp only [keepnOpen, hs, ne_eq, not_true, if_false] at e
    split at e
    · right
      have hn : (if cerr = 0 then 3 else cerr) ≠ 0 := by split <;> omega
      generalize (if cerr = 0 then 3 else cerr) = n at hn e
      simp only [Option.map_eq_some_iff] at e
      obtain ⟨u, h1, rfl⟩ := e
      simp only [startTimer] at h1
      obtain ⟨v, h2, h3⟩ := Option.bind_eq_some_iff.mp h1
      simp only [ref] at h2
      split at h2 <;> cases h2
      split at h3 <;> cases h3
      exact ⟨rfl, hn⟩
    · cases e
      exact .inl ⟨rfl, rfl⟩

example : (match exec false init [.open 1 0, .childOpen 7 false false] with | .ok s => s.lastErr = 7 && s.cc = .errLog | _ => false) = true := by decide +kernel

end Gensio.Keepopen
