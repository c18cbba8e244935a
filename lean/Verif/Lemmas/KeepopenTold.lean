import Verif.Lemmas.Keepopen

/-!
# What the user of a keepopen gensio is told
-/
set_option linter.unusedSimpArgs false
namespace Gensio.Keepopen

theorem Reach.inv {r : Bool} {s : K} (h : Reach r clean s) : Inv s := by
  induction h with
  | init => exact Inv.start
  | @step s s' op _ hc hp e ih =>
    have hg := ih.next (r := r) hc hp
    rw [e] at hg
    exact hg

/-- What the user may see of a gensio: nothing, an open that was not reported, an open one, a close that was not reported (and perhaps
an open), a freed one with perhaps a close that was not reported. -/
inductive Phase | idle | opening (id : Nat) | opened | closing (o : Option Nat) (c : Nat) | gone (c : Option Nat)
deriving Repr, DecidableEq

/-- What `gensio_open(3)` and `gensio_close(3)` say: an open is accepted if the gensio is closed and then reported once; a close is
accepted if the gensio is not closed and not closing, and then reported once, after the open; what is refused is not reported; after
`gensio_free` no open is reported, and a close that was accepted may be. -/
def Phase.next : Phase → Ev → Option Phase
  | .idle, .openRet id true => some (.opening id)
  | .idle, .closeRet _ false => some .idle
  | .idle, .free => some (.gone none)
  | .opening id, .openCb id' => if id = id' then some .opened else none
  | .opening id, .openRet _ false => some (.opening id)
  | .opening id, .closeRet c true => some (.closing (some id) c)
  | .opening _, .free => some (.gone none)
  | .opened, .openRet _ false => some .opened
  | .opened, .closeRet c true => some (.closing none c)
  | .opened, .free => some (.gone none)
  | .closing o c, .openRet _ false => some (.closing o c)
  | .closing o c, .closeRet _ false => some (.closing o c)
  | .closing (some id) c, .openCb id' => if id = id' then some (.closing none c) else none
  | .closing none c, .closeCb c' => if c = c' then some .idle else none
  | .closing _ c, .free => some (.gone (some c))
  | .gone (some c), .closeCb c' => if c = c' then some (.gone none) else none
  | p, .setRx _ | p, .setTx _ | p, .ioErr _ _ => some p
  | _, _ => none

/-- What the user sees after a log; `none` if the log is not one the manual allows. -/
def spec (l : List Ev) : Option Phase := l.foldlM Phase.next .idle

theorem spec_say (l : List Ev) (e : Ev) : spec (l ++ [e]) = (spec l).bind (Phase.next · e) := by
  simp only [spec, List.foldlM_append, List.foldlM_cons, List.foldlM_nil]
  cases List.foldlM Phase.next Phase.idle l with
  | none => rfl
  | some p => cases h : p.next e <;> simp [h]

/-- What the user sees in a state. -/
def phaseOf (s : K) : Phase :=
  if s.gone then .gone s.closeDone
  else match s.state with
  | .closed => .idle
  | .inClose | .closeStopTimer => .closing s.openDone (s.closeDone.getD 0)
  | _ => match s.openDone with | some id => .opening id | none => .opened

structure Told (s : K) : Prop where
  spec : spec s.log = some (phaseOf s)
  close : s.gone = false → (s.closeDone.isSome = true ↔ s.state = .inClose ∨ s.state = .closeStopTimer)
  gone : s.gone = true → s.state = .closed → s.closeDone.isSome = true → s.cc = .closeOpenCb

/-- The child does not refuse to close when the user closes. -/
def accepts (s : K) : Op → Prop
  | .close _ cerr => cerr = 0
  | _ => True

def GoodT : Option K → Prop
  | some s => Told s
  | none => True

theorem goodT_ite {c : Prop} [Decidable c] (x y : Option K) : GoodT (if c then x else y) = if c then GoodT x else GoodT y := by
  split <;> rfl

theorem goodT_some (s : K) : GoodT (some s) = Told s := rfl

theorem goodT_none : GoodT none = True := rfl

theorem goodT_unlockDeref {s : K} (h : Told s) : GoodT (unlockDeref s) := by
  obtain ⟨h1, h2, h3⟩ := h
  unfold unlockDeref
  split
  · exact trivial
  split
  · exact ⟨h1, h2, h3⟩
  · exact ⟨h1, h2, h3⟩

theorem goodT_free {s : K} (h : Told s) : GoodT ((cancelTimer s).bind unlockDeref) := by
  simp only [cancelTimer, startTimer, ref]
  obtain ⟨h1, h2, h3⟩ := h
  split
  · by_cases h0 : s.ref = 0
    · simp [h0, GoodT]
    · simp only [h0, if_false, Option.bind_some, Bool.false_eq_true, false_and]
      rw [deref, if_neg (by dsimp only; omega)]
      exact goodT_unlockDeref ⟨h1, h2, h3⟩
  · exact goodT_unlockDeref ⟨h1, h2, h3⟩

set_option maxRecDepth 4000 in
set_option maxHeartbeats 4000000 in
theorem Told.next {r : Bool} {s : K} {op : Op} (h : Inv s) (ht : Told s) (hc : can s op = true) (hp : clean s op) (hq : accepts s op) :
    GoodT (step r s op) := by
  have hf : s.freed = false := h.alive hc
  obtain ⟨state, ref, lastErr, rx, tx, openDone, closeDone, armed, hnd, child, childRx, childTx, cc, pass, gone, freed, log⟩ := s
  obtain ⟨refs, hfreed, hgone, errLog, okLog, closeOpenCb, called, failCb, stopOpenCb, timed, untimed, inOpen, opened, inClose, childErr, closed, opening, isopen, hpass, settled, isclosing⟩ := h
  obtain ⟨tspec, tclose, tgone⟩ := ht
  dsimp only at hf
  subst hf
  clear refs hfreed
  cases op <;> simp only [can, clean, accepts, step, Bool.false_eq_true, if_false, K.closing, phaseOf] at *
  case «open» id cerr =>
    cases gone <;> cases state <;> cases openDone <;> cases closeDone <;> (try simp only [reduceCtorEq, if_true, if_false, Bool.false_eq_true, Option.isSome_some, Option.isSome_none, false_iff, true_iff, or_self, or_false, false_or, false_and, true_and, and_true, and_false, not_true, not_false_iff, imp_false, false_implies, true_implies, IsEmpty.forall_iff] at hgone tclose tgone tspec closed settled) <;> skip <;> (try simp [keepnOpen, openChild, startTimer, Gensio.Keepopen.ref, K.say, bind_ite', map_ite', goodT_ite, goodT_some, goodT_none, n]) <;> (repeat' split) <;> (try simp only [Option.bind_some, Option.map_some, Function.comp, goodT_ite, goodT_some, goodT_none]) <;> (repeat' split) <;> (try trivial) <;> (try intros) <;> first | (exfalso; grind [n]) | (constructor <;> (try simp [spec_say, tspec, phaseOf, Phase.next]) <;> (try simp_all) <;> (try grind [Phase.next]))
  case close id cerr =>
    cases gone <;> cases state <;> cases openDone <;> cases closeDone <;> (try simp only [reduceCtorEq, if_true, if_false, Bool.false_eq_true, Option.isSome_some, Option.isSome_none, false_iff, true_iff, or_self, or_false, false_or, false_and, true_and, and_true, and_false, not_true, not_false_iff, imp_false, false_implies, true_implies, IsEmpty.forall_iff] at hgone tclose tgone tspec closed settled) <;> cases child <;> (try simp [keepnClose, closeChild, cancelTimer, deref, startTimer, Gensio.Keepopen.ref, K.say, bind_ite', map_ite', goodT_ite, goodT_some, goodT_none, n]) <;> (repeat' split) <;> (try simp only [Option.bind_some, Option.map_some, Function.comp, goodT_ite, goodT_some, goodT_none]) <;> (repeat' split) <;> (try trivial) <;> (try intros) <;> first | (exfalso; grind [n]) | (constructor <;> (try simp [spec_say, tspec, phaseOf, Phase.next]) <;> (try simp_all) <;> (try grind [Phase.next]))
  case free cerr =>
    cases gone <;> cases state <;> cases openDone <;> cases closeDone <;> (try simp only [reduceCtorEq, if_true, if_false, Bool.false_eq_true, Option.isSome_some, Option.isSome_none, false_iff, true_iff, or_self, or_false, false_or, false_and, true_and, and_true, and_false, not_true, not_false_iff, imp_false, false_implies, true_implies, IsEmpty.forall_iff] at hgone tclose tgone tspec closed settled) <;> simp only [keepnFree, K.say] <;> (try (exfalso; grind; done)) <;>
      first | refine goodT_unlockDeref ?_ | refine goodT_free ?_
    all_goals constructor <;> (try simp [spec_say, tspec, phaseOf, Phase.next]) <;> (try simp_all) <;> (try grind [Phase.next])
  case setRx b =>
    cases gone <;> cases state <;> cases openDone <;> cases closeDone <;> (try simp only [reduceCtorEq, if_true, if_false, Bool.false_eq_true, Option.isSome_some, Option.isSome_none, false_iff, true_iff, or_self, or_false, false_or, false_and, true_and, and_true, and_false, not_true, not_false_iff, imp_false, false_implies, true_implies, IsEmpty.forall_iff] at hgone tclose tgone tspec closed settled) <;> skip <;> (try simp [K.say, bind_ite', map_ite', goodT_ite, goodT_some, goodT_none, n]) <;> (repeat' split) <;> (try simp only [Option.bind_some, Option.map_some, Function.comp, goodT_ite, goodT_some, goodT_none]) <;> (repeat' split) <;> (try trivial) <;> (try intros) <;> first | (exfalso; grind [n]) | (constructor <;> (try simp [spec_say, tspec, phaseOf, Phase.next]) <;> (try simp_all) <;> (try grind [Phase.next]))
  case setTx b =>
    cases gone <;> cases state <;> cases openDone <;> cases closeDone <;> (try simp only [reduceCtorEq, if_true, if_false, Bool.false_eq_true, Option.isSome_some, Option.isSome_none, false_iff, true_iff, or_self, or_false, false_or, false_and, true_and, and_true, and_false, not_true, not_false_iff, imp_false, false_implies, true_implies, IsEmpty.forall_iff] at hgone tclose tgone tspec closed settled) <;> skip <;> (try simp [K.say, bind_ite', map_ite', goodT_ite, goodT_some, goodT_none, n]) <;> (repeat' split) <;> (try simp only [Option.bind_some, Option.map_some, Function.comp, goodT_ite, goodT_some, goodT_none]) <;> (repeat' split) <;> (try trivial) <;> (try intros) <;> first | (exfalso; grind [n]) | (constructor <;> (try simp [spec_say, tspec, phaseOf, Phase.next]) <;> (try simp_all) <;> (try grind [Phase.next]))
  case pass =>
    cases gone <;> cases state <;> cases openDone <;> cases closeDone <;> (try simp only [reduceCtorEq, if_true, if_false, Bool.false_eq_true, Option.isSome_some, Option.isSome_none, false_iff, true_iff, or_self, or_false, false_or, false_and, true_and, and_true, and_false, not_true, not_false_iff, imp_false, false_implies, true_implies, IsEmpty.forall_iff] at hgone tclose tgone tspec closed settled) <;> skip <;> (try simp [bind_ite', map_ite', goodT_ite, goodT_some, goodT_none, n]) <;> (repeat' split) <;> (try simp only [Option.bind_some, Option.map_some, Function.comp, goodT_ite, goodT_some, goodT_none]) <;> (repeat' split) <;> (try trivial) <;> (try intros) <;> first | (exfalso; grind [n]) | (constructor <;> (try simp [spec_say, tspec, phaseOf, Phase.next]) <;> (try simp_all) <;> (try grind [Phase.next]))
  case write err cerr =>
    cases gone <;> cases state <;> cases openDone <;> cases closeDone <;> (try simp only [reduceCtorEq, if_true, if_false, Bool.false_eq_true, Option.isSome_some, Option.isSome_none, false_iff, true_iff, or_self, or_false, false_or, false_and, true_and, and_true, and_false, not_true, not_false_iff, imp_false, false_implies, true_implies, IsEmpty.forall_iff] at hgone tclose tgone tspec closed settled) <;> cases child <;> (try simp [handleIoErr, closeChild, closeErr, startTimer, Gensio.Keepopen.ref, K.say, bind_ite', map_ite', goodT_ite, goodT_some, goodT_none, n]) <;> (repeat' split) <;> (try simp only [Option.bind_some, Option.map_some, Function.comp, goodT_ite, goodT_some, goodT_none]) <;> (repeat' split) <;> (try trivial) <;> (try intros) <;> first | (exfalso; grind [n]) | (constructor <;> (try simp [spec_say, tspec, phaseOf, Phase.next]) <;> (try simp_all) <;> (try grind [Phase.next]))
  case childOpen err rx tx =>
    cases gone <;> cases state <;> cases openDone <;> cases closeDone <;> (try simp only [reduceCtorEq, if_true, if_false, Bool.false_eq_true, Option.isSome_some, Option.isSome_none, false_iff, true_iff, or_self, or_false, false_or, false_and, true_and, and_true, and_false, not_true, not_false_iff, imp_false, false_implies, true_implies, IsEmpty.forall_iff] at hgone tclose tgone tspec closed settled) <;> skip <;> (try simp [openDoneCb, openFinish, openReport, K.say, bind_ite', map_ite', goodT_ite, goodT_some, goodT_none, n]) <;> (repeat' split) <;> (try simp only [Option.bind_some, Option.map_some, Function.comp, goodT_ite, goodT_some, goodT_none]) <;> (repeat' split) <;> (try trivial) <;> (try intros) <;> first | (exfalso; grind [n]) | (constructor <;> (try simp [spec_say, tspec, phaseOf, Phase.next]) <;> (try simp_all) <;> (try grind [Phase.next]))
  case childClosed =>
    cases gone <;> cases state <;> cases openDone <;> cases closeDone <;> (try simp only [reduceCtorEq, if_true, if_false, Bool.false_eq_true, Option.isSome_some, Option.isSome_none, false_iff, true_iff, or_self, or_false, false_or, false_and, true_and, and_true, and_false, not_true, not_false_iff, imp_false, false_implies, true_implies, IsEmpty.forall_iff] at hgone tclose tgone tspec closed settled) <;> skip <;> (try simp [closeDoneCb, reportClose, unlockDeref, startTimer, Gensio.Keepopen.ref, K.say, bind_ite', map_ite', goodT_ite, goodT_some, goodT_none, n]) <;> (repeat' split) <;> (try simp only [Option.bind_some, Option.map_some, Function.comp, goodT_ite, goodT_some, goodT_none]) <;> (repeat' split) <;> (try trivial) <;> (try intros) <;> first | (exfalso; grind [n]) | (constructor <;> (try simp [spec_say, tspec, phaseOf, Phase.next]) <;> (try simp_all) <;> (try grind [Phase.next]))
  case childErr err cerr =>
    cases gone <;> cases state <;> cases openDone <;> cases closeDone <;> (try simp only [reduceCtorEq, if_true, if_false, Bool.false_eq_true, Option.isSome_some, Option.isSome_none, false_iff, true_iff, or_self, or_false, false_or, false_and, true_and, and_true, and_false, not_true, not_false_iff, imp_false, false_implies, true_implies, IsEmpty.forall_iff] at hgone tclose tgone tspec closed settled) <;> cases child <;> (try simp [handleIoErr, closeChild, closeErr, startTimer, Gensio.Keepopen.ref, K.say, bind_ite', map_ite', goodT_ite, goodT_some, goodT_none, n]) <;> (repeat' split) <;> (try simp only [Option.bind_some, Option.map_some, Function.comp, goodT_ite, goodT_some, goodT_none]) <;> (repeat' split) <;> (try trivial) <;> (try intros) <;> first | (exfalso; grind [n]) | (constructor <;> (try simp [spec_say, tspec, phaseOf, Phase.next]) <;> (try simp_all) <;> (try grind [Phase.next]))
  case childCont =>
    cases gone <;> cases state <;> cases openDone <;> cases closeDone <;> (try simp only [reduceCtorEq, if_true, if_false, Bool.false_eq_true, Option.isSome_some, Option.isSome_none, false_iff, true_iff, or_self, or_false, false_or, false_and, true_and, and_true, and_false, not_true, not_false_iff, imp_false, false_implies, true_implies, IsEmpty.forall_iff] at hgone tclose tgone tspec closed settled) <;> cases cc <;> (try simp [openFailed, openFinish, openReport, reportClose, unlockDeref, startTimer, Gensio.Keepopen.ref, K.say, bind_ite', map_ite', goodT_ite, goodT_some, goodT_none, n]) <;> (repeat' split) <;> (try simp only [Option.bind_some, Option.map_some, Function.comp, goodT_ite, goodT_some, goodT_none]) <;> (repeat' split) <;> (try trivial) <;> (try intros) <;> first | (exfalso; grind [n]) | (constructor <;> (try simp [spec_say, tspec, phaseOf, Phase.next]) <;> (try simp_all) <;> (try grind [Phase.next]))
  case fire =>
    cases gone <;> cases state <;> cases openDone <;> cases closeDone <;> (try simp only [reduceCtorEq, if_true, if_false, Bool.false_eq_true, Option.isSome_some, Option.isSome_none, false_iff, true_iff, or_self, or_false, false_or, false_and, true_and, and_true, and_false, not_true, not_false_iff, imp_false, false_implies, true_implies, IsEmpty.forall_iff] at hgone tclose tgone tspec closed settled) <;> skip <;> (try simp [bind_ite', map_ite', goodT_ite, goodT_some, goodT_none, n]) <;> (repeat' split) <;> (try simp only [Option.bind_some, Option.map_some, Function.comp, goodT_ite, goodT_some, goodT_none]) <;> (repeat' split) <;> (try trivial) <;> (try intros) <;> first | (exfalso; grind [n]) | (constructor <;> (try simp [spec_say, tspec, phaseOf, Phase.next]) <;> (try simp_all) <;> (try grind [Phase.next]))
  case timeout cerr =>
    cases gone <;> cases state <;> cases openDone <;> cases closeDone <;> (try simp only [reduceCtorEq, if_true, if_false, Bool.false_eq_true, Option.isSome_some, Option.isSome_none, false_iff, true_iff, or_self, or_false, false_or, false_and, true_and, and_true, and_false, not_true, not_false_iff, imp_false, false_implies, true_implies, IsEmpty.forall_iff] at hgone tclose tgone tspec closed settled) <;> cases child <;> cases cerr <;> (try simp [retryTimeout, openChild, failFinish, reportClose, unlockDeref, startTimer, Gensio.Keepopen.ref, K.say, bind_ite', map_ite', goodT_ite, goodT_some, goodT_none, n]) <;> (repeat' split) <;> (try simp only [Option.bind_some, Option.map_some, Function.comp, goodT_ite, goodT_some, goodT_none]) <;> (repeat' split) <;> (try trivial) <;> (try intros) <;> first | (exfalso; grind [n]) | (constructor <;> (try simp [spec_say, tspec, phaseOf, Phase.next]) <;> (try simp_all) <;> (try grind [Phase.next]))
  case timerCont =>
    cases gone <;> cases state <;> cases openDone <;> cases closeDone <;> (try simp only [reduceCtorEq, if_true, if_false, Bool.false_eq_true, Option.isSome_some, Option.isSome_none, false_iff, true_iff, or_self, or_false, false_or, false_and, true_and, and_true, and_false, not_true, not_false_iff, imp_false, false_implies, true_implies, IsEmpty.forall_iff] at hgone tclose tgone tspec closed settled) <;> cases hnd <;> (try simp [failFinish, reportClose, unlockDeref, startTimer, Gensio.Keepopen.ref, K.say, bind_ite', map_ite', goodT_ite, goodT_some, goodT_none, n]) <;> (repeat' split) <;> (try simp only [Option.bind_some, Option.map_some, Function.comp, goodT_ite, goodT_some, goodT_none]) <;> (repeat' split) <;> (try trivial) <;> (try intros) <;> first | (exfalso; grind [n]) | (constructor <;> (try simp [spec_say, tspec, phaseOf, Phase.next]) <;> (try simp_all) <;> (try grind [Phase.next]))

end Gensio.Keepopen
