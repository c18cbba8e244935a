import Verif.Lemmas.Acc

/-!
# What the user of an accepter is told
-/
namespace Gensio.Acc

theorem cnt_of_reach {leaf : Bool} {P : A → Op → Prop} {s : A} (h : Reach leaf P s) : Cnt s := by
  induction h with
  | init => exact Cnt.init
  | step op _ hc _ hs ih => exact ih.step hc hs

/-! ## Parts of the state that the end of a step does not change -/

/-- What only `deref` changes is different. -/
structure Same (s t : A) : Prop where
  st : t.st = s.st
  inCb : t.inCb = s.inCb
  freed : t.freed = s.freed
  callShut : t.callShut = s.callShut
  shutDone : t.shutDone = s.shutDone
  enDone : t.enDone = s.enDone
  low : t.low = s.low
  gen : t.gen = s.gen
  lowEn : t.lowEn = s.lowEn
  opening : t.opening = s.opening
  inConn : t.inConn = s.inConn
  inEn : t.inEn = s.inEn
  inShut : t.inShut = s.inShut
  log : t.log = s.log

theorem deref_same {leaf : Bool} {s t : A} (h : deref leaf s = some t) : Same s t := by
  unfold deref at h
  repeat' split at h
  all_goals (try cases h)
  all_goals constructor <;> rfl

theorem ref_same {s t : A} (h : ref s = some t) : Same s t := by
  unfold ref at h
  split at h
  · cases h
  · cases h; constructor <;> rfl

/-- A shutdown is reported, or not. -/
theorem leave_same {leaf : Bool} {s t : A} (h : leaveCb leaf s = some t) :
    s.inCb ≠ 0 ∧ ((s.inCb = 1 ∧ s.callShut = true ∧ t = finishShut { s with inCb := 0 }) ∨
      ((s.inCb ≠ 1 ∨ s.callShut = false) ∧ Same { s with inCb := s.inCb - 1 } t)) := by
  unfold leaveCb at h
  split at h
  · cases h
  · rename_i h0
    refine ⟨h0, ?_⟩
    dsimp only at h
    split at h
    · rename_i hh
      obtain ⟨h1, h2⟩ := hh
      cases h
      refine .inl ⟨by omega, h2, by rw [h1]⟩
    · rename_i hh
      refine .inr ⟨?_, deref_same h⟩
      cases hc : s.callShut
      · exact .inr rfl
      · refine .inl fun h1 => hh ⟨by omega, hc⟩

/-! ## The callbacks for enables, in all runs -/

/-- What may come in which order: an accepted call with a callback, and then the callback. -/
def trackEn (p : Option Nat) : Ev → Option (Option Nat)
  | .enable (some id) true => if p = none then some (some id) else none
  | .enableCb id => if p = some id then some none else none
  | _ => some p

/-- The call that is to be answered. -/
def wait (n : Nat) (e : Option Nat) : Option Nat := if n = 0 then none else e

/-- The call that is to be answered is the one in the state. -/
def EnTold (s : A) : Prop := s.log.foldlM trackEn none = some (wait s.lowEn s.enDone)

theorem foldlM_snoc {α β : Type} {f : β → α → Option β} {b : β} {l : List α} {a : α} :
    (l ++ [a]).foldlM f b = (l.foldlM f b).bind fun x => f x a := by
  simp [List.foldlM_append]

theorem EnTold.same {s t : A} (h : EnTold s) (k : Same s t) : EnTold t := by
  unfold EnTold at *
  rw [k.log, k.lowEn, k.enDone]; exact h

theorem EnTold.finish {s : A} (h : EnTold s) : EnTold (finishShut s) := by
  unfold EnTold finishShut at *
  split
  · simp only [A.say, foldlM_snoc, h, Option.bind_some, trackEn]
  · exact h

theorem EnTold.leave {leaf : Bool} {s t : A} (h : EnTold s) (k : leaveCb leaf s = some t) : EnTold t := by
  rcases (leave_same k).2 with ⟨_, _, rfl⟩ | ⟨_, k⟩
  · exact EnTold.finish (s := { s with inCb := 0 }) h
  · exact EnTold.same (s := { s with inCb := s.inCb - 1 }) h k

theorem EnTold.say {s : A} {e : Ev} (h : EnTold s) (he : ∀ p, trackEn p e = some p) : EnTold (s.say e) := by
  unfold EnTold at *
  simp only [A.say, foldlM_snoc, h, Option.bind_some, he]

theorem EnTold.step {leaf : Bool} {s s' : A} {op : Op} (hi : EnTold s) (ci : Cnt s) (hc : can leaf s op = true) (h : step leaf s op = some s') : EnTold s' := by
  unfold Acc.step at h
  split at h
  · cases h
  cases op with
  | startup lerr =>
    dsimp only at h
    repeat' split at h
    all_goals (try cases h)
    all_goals exact hi.say (fun _ => rfl)
  | shutdown id lerr =>
    dsimp only [Acc.shutdown] at h
    split at h
    · split at h
      · cases hr : ref { s with shutDone := some id, low := .closing } with
        | none => rw [hr] at h; cases h
        | some t =>
          rw [hr] at h; cases h
          exact (EnTold.same (s := { s with shutDone := some id, low := .closing }) hi (ref_same hr)).say (fun _ => rfl)
      · cases h; exact hi.say (fun _ => rfl)
    · cases h; exact hi.say (fun _ => rfl)
  | lowShut =>
    dsimp only at h
    split at h
    · exact EnTold.same (s := { s with low := .closed, callShut := true }) hi (deref_same h)
    · cases h; exact EnTold.finish (s := { s with low := .closed }) hi
  | shutCont => exact EnTold.same (s := { s with inShut := s.inShut - 1 }) hi (deref_same h)
  | enable done lerr =>
    dsimp only [Acc.enable] at h
    split at h
    · cases h
      refine hi.say fun p => ?_
      cases done <;> rfl
    · rename_i hn
      split at h
      · cases h
        unfold EnTold at *
        rename_i hl
        have e : trackEn (wait s.lowEn s.enDone) (.enable done false) = some (wait s.lowEn s.enDone) := by
          cases done <;> rfl
        simp only [A.say, foldlM_snoc, hi, Option.bind_some, e, Option.some.injEq]
        by_cases h0 : s.lowEn = 0
        · rw [wait, wait, if_pos h0, if_pos h0]
        · have : s.enDone.isSome := ci.en2 h0
          rw [wait, wait, if_neg h0, if_neg h0, if_neg fun hd => hn (.inr ⟨hd, this⟩)]
      · split at h
        · rename_i hd
          obtain ⟨id, rfl⟩ := Option.isSome_iff_exists.mp hd
          have hne : s.enDone = none := by
            cases he : s.enDone with
            | none => rfl
            | some x => exact absurd (.inr ⟨rfl, by rw [he]; rfl⟩) hn
          have l0 : s.lowEn = 0 := by
            cases hh : s.lowEn with
            | zero => rfl
            | succ n => have := ci.en2 (by omega); rw [hne] at this; cases this
          simp only [enterCb, A.say, Option.map_map] at h
          split at h <;> rename_i hleaf
          all_goals
            revert h
            generalize hr : Acc.ref _ = r
            intro h
            cases r with
            | none => cases h
            | some t =>
              simp only [Option.map_some, Function.comp, Option.some.injEq] at h
              subst h
              have k := ref_same hr
              unfold EnTold at *
              simp only [k.log, k.lowEn, k.enDone, foldlM_snoc, hi, Option.bind_some, trackEn, wait, l0, if_true]
              rfl
        · cases h
          rename_i hd
          have hd : done = none := by simpa using hd
          subst hd
          unfold EnTold at *
          simp only [A.say, foldlM_snoc, hi, Option.bind_some]
          rfl
  | lowEn =>
    have hl : s.lowEn ≠ 0 := by simpa [can] using hc
    dsimp only at h
    split at h
    · cases h
    · split at h
      · cases h
      · rename_i id he
        cases h
        unfold EnTold at *
        have := ci.en1
        simp only [A.say, foldlM_snoc, hi, Option.bind_some, trackEn, wait, if_neg hl, he, if_true, Option.some.injEq]
        split <;> rfl
  | enCont => exact EnTold.leave (s := { s with inEn := s.inEn - 1 }) hi h
  | newChild err =>
    dsimp only [enterCb] at h
    split at h
    · cases h; exact hi
    · cases hr : ref s with
      | none => rw [hr] at h; cases h
      | some t =>
        rw [hr] at h; cases h
        have k : EnTold t := EnTold.same hi (ref_same hr)
        exact k
  | openDone err =>
    dsimp only at h
    split at h
    · exact EnTold.leave (s := { s with opening := s.opening - 1 }) hi h
    · split at h
      · cases h; exact hi.say (fun _ => rfl)
      · exact EnTold.leave (s := { s with opening := s.opening - 1 }) hi h
  | connCont =>
    dsimp only at h
    split at h
    · cases h
    · exact EnTold.leave (s := { s with inConn := s.inConn - 1, inCb := s.inCb - 1 }) hi h
  | free lerr =>
    have hi' : EnTold (s.say .free) := hi.say (fun _ => rfl)
    dsimp only [Acc.free] at h
    split at h
    · cases h
    · split at h
      · exact EnTold.same (s := { (s.say .free) with freed := true }) hi' (deref_same h)
      · exact EnTold.same (s := { (s.say .free) with freed := true, shutDone := none }) hi' (deref_same h)
      · split at h
        · revert h
          generalize hr : Acc.ref _ = r
          intro h
          cases r with
          | none => cases h
          | some t =>
            have k : EnTold t := EnTold.same (s := { (s.say .free) with freed := true, low := .closing }) hi' (ref_same hr)
            exact EnTold.same (s := { t with st := .inShutdown }) k (deref_same h)
        · exact EnTold.same (s := { (s.say .free) with freed := true, st := .closed }) hi' (deref_same h)

/-! ## A step without its references -/

/-- `leaveCb` without its reference. -/
def leaveCore (s : A) : A := if s.inCb = 1 ∧ s.callShut then finishShut { s with inCb := 0 } else { s with inCb := s.inCb - 1 }

/-- `step` without its references. -/
def core (leaf : Bool) (s : A) : Op → A
  | .startup lerr =>
    if s.st ≠ .closed then s.say (.start false)
    else if lerr ≠ 0 ∨ s.low ≠ .closed then { (s.say (.start false)) with shutDone := none }
    else { (s.say (.start true)) with shutDone := none, st := .opened, low := .opened }
  | .shutdown id lerr =>
    if s.st = .opened then
      if lerr = 0 ∧ s.low = .opened then { (s.say (.shutdown id true)) with shutDone := some id, low := .closing, st := .inShutdown }
      else { (s.say (.shutdown id false)) with shutDone := some id }
    else s.say (.shutdown id false)
  | .lowShut => if s.inCb ≠ 0 then { s with low := .closed, callShut := true } else finishShut { s with low := .closed }
  | .shutCont => { s with inShut := s.inShut - 1 }
  | .enable done lerr =>
    if s.st ≠ .opened ∨ (done.isSome ∧ s.enDone.isSome) then s.say (.enable done false)
    else if lerr ≠ 0 ∨ (leaf ∧ s.lowEn ≠ 0) then
      { (s.say (.enable done false)) with enDone := if done.isSome then done else s.enDone, gen := if leaf then s.gen else done.isSome }
    else if done.isSome then
      { (s.say (.enable done true)) with enDone := done, gen := if leaf then s.gen else true, inCb := s.inCb + 1, lowEn := s.lowEn + 1 }
    else { (s.say (.enable done true)) with gen := if leaf then s.gen else false }
  | .lowEn => { (s.say (.enableCb (s.enDone.getD 0))) with lowEn := s.lowEn - 1, enDone := none, inEn := s.inEn + 1 }
  | .enCont => leaveCore { s with inEn := s.inEn - 1 }
  | .newChild err => if s.st ≠ .opened ∨ err ≠ 0 then s else { s with inCb := s.inCb + 1, opening := s.opening + 1 }
  | .openDone err =>
    if err = 0 ∧ s.st = .opened then { (s.say .newConn) with opening := s.opening - 1, inCb := s.inCb + 1, inConn := s.inConn + 1 }
    else leaveCore { s with opening := s.opening - 1 }
  | .connCont => leaveCore { s with inConn := s.inConn - 1, inCb := s.inCb - 1 }
  | .free lerr =>
    match s.st with
    | .closed => { (s.say .free) with freed := true }
    | .inShutdown => { (s.say .free) with freed := true, shutDone := none }
    | .opened =>
      if lerr = 0 ∧ s.low = .opened then { (s.say .free) with freed := true, low := .closing, st := .inShutdown }
      else { (s.say .free) with freed := true, st := .closed }

theorem leave_core {leaf : Bool} {s t : A} (h : leaveCb leaf s = some t) : Same (leaveCore s) t := by
  unfold leaveCore
  rcases (leave_same h).2 with ⟨h1, h2, rfl⟩ | ⟨h1, k⟩
  · rw [if_pos ⟨h1, h2⟩]; constructor <;> rfl
  · rw [if_neg (by rintro ⟨a, b⟩; rcases h1 with h1 | h1 <;> simp_all)]
    exact k

theorem Same.trans {s t u : A} (a : Same s t) (b : Same t u) : Same s u :=
  ⟨b.st.trans a.st, b.inCb.trans a.inCb, b.freed.trans a.freed, b.callShut.trans a.callShut, b.shutDone.trans a.shutDone, b.enDone.trans a.enDone,
   b.low.trans a.low, b.gen.trans a.gen, b.lowEn.trans a.lowEn, b.opening.trans a.opening, b.inConn.trans a.inConn, b.inEn.trans a.inEn,
   b.inShut.trans a.inShut, b.log.trans a.log⟩

theorem Same.rfl' (s : A) : Same s s := by constructor <;> rfl

theorem step_core {leaf : Bool} {s s' : A} {op : Op} (h : step leaf s op = some s') : Same (core leaf s op) s' ∧ s.gone = false := by
  unfold Acc.step at h
  split at h
  · cases h
  rename_i hg
  refine ⟨?_, by simpa using hg⟩
  cases op with
  | startup lerr =>
    dsimp only at h ⊢
    dsimp only [core]
    split at h
    · cases h
    · split at h
      · rw [if_pos (by assumption)]; cases h; exact .rfl' _
      · rw [if_neg (by assumption)]
        split at h
        · rw [if_pos (by assumption)]; cases h; exact .rfl' _
        · rw [if_neg (by assumption)]; cases h; exact .rfl' _
  | shutdown id lerr =>
    dsimp only [Acc.shutdown, core] at h ⊢
    simp only [lowShutdown, Bool.decide_and, Bool.and_eq_true, decide_eq_true_eq] at h
    split at h
    · rw [if_pos (by assumption)]
      split at h
      · rw [if_pos (by assumption)]
        cases hr : ref { s with shutDone := some id, low := .closing } with
        | none => rw [hr] at h; cases h
        | some t =>
          rw [hr] at h; cases h
          have k := ref_same hr
          exact ⟨rfl, k.inCb, k.freed, k.callShut, k.shutDone, k.enDone, k.low, k.gen, k.lowEn, k.opening, k.inConn, k.inEn, k.inShut,
            by simp only [A.say, k.log]⟩
      · rw [if_neg (by assumption)]; cases h; exact .rfl' _
    · rw [if_neg (by assumption)]; cases h; exact .rfl' _
  | lowShut =>
    dsimp only [core] at h ⊢
    split at h
    · rw [if_pos (by assumption)]; exact deref_same h
    · rw [if_neg (by assumption)]; cases h; exact .rfl' _
  | shutCont => exact deref_same h
  | enable done lerr =>
    dsimp only [Acc.enable, core] at h ⊢
    split at h
    · rw [if_pos (by assumption)]; cases h; exact .rfl' _
    · rw [if_neg (by assumption)]
      split at h
      · rw [if_pos (by assumption)]; cases h; exact .rfl' _
      · rw [if_neg (by assumption)]
        split at h
        · rename_i hd
          rw [if_pos hd]
          simp only [enterCb, A.say, Option.map_map] at h
          revert h
          generalize hr : Acc.ref _ = r
          intro h
          cases r with
          | none => cases h
          | some t =>
            simp only [Option.map_some, Function.comp, Option.some.injEq] at h
            subst h
            have k := ref_same hr
            obtain ⟨k1, k2, k3, k4, k5, k6, k7, k8, k9, k10, k11, k12, k13, k14⟩ := k
            dsimp only at k1 k2 k3 k4 k5 k6 k7 k8 k9 k10 k11 k12 k13 k14
            constructor <;> simp only [A.say, k1, k2, k3, k4, k5, k6, k7, k8, k9, k10, k11, k12, k13, k14, hd, if_true]
        · rename_i hd
          rw [if_neg hd]
          cases h
          rw [show done.isSome = false from by simpa using hd]
          constructor <;> simp [A.say]
  | lowEn =>
    dsimp only [core] at h ⊢
    split at h
    · cases h
    · split at h
      · cases h
      · rename_i he; cases h; rw [he]; exact .rfl' _
  | enCont => exact leave_core h
  | newChild err =>
    dsimp only [enterCb, core] at h ⊢
    split at h
    · rw [if_pos (by assumption)]; cases h; exact .rfl' _
    · rw [if_neg (by assumption)]
      cases hr : ref s with
      | none => rw [hr] at h; cases h
      | some t =>
        rw [hr] at h; cases h
        obtain ⟨k1, k2, k3, k4, k5, k6, k7, k8, k9, k10, k11, k12, k13, k14⟩ := ref_same hr
        constructor <;> simp only [k1, k2, k3, k4, k5, k6, k7, k8, k9, k10, k11, k12, k13, k14]
  | openDone err =>
    dsimp only [core] at h ⊢
    split at h
    · rename_i he; rw [if_neg fun a => he a.1]; exact leave_core h
    · rename_i he
      split at h
      · rename_i hs
        rw [if_pos ⟨by simpa using he, hs⟩]; cases h; exact .rfl' _
      · rename_i hs
        rw [if_neg fun a => hs a.2]; exact leave_core h
  | connCont =>
    dsimp only [core] at h ⊢
    split at h
    · cases h
    · exact leave_core h
  | free lerr =>
    dsimp only [Acc.free, core] at h ⊢
    split at h
    · cases h
    · split at h
      · rename_i hs; dsimp only [A.say] at hs; rw [hs]; exact deref_same h
      · rename_i hs; dsimp only [A.say] at hs; rw [hs]; exact deref_same h
      · rename_i hs; dsimp only [A.say] at hs; rw [hs]
        dsimp only
        by_cases hh : lerr = 0 ∧ s.low = .opened
        · rw [if_pos (by unfold lowShutdown; exact decide_eq_true hh)] at h
          rw [if_pos hh]
          revert h
          generalize hr : Acc.ref _ = r
          intro h
          cases r with
          | none => cases h
          | some t =>
            have k := ref_same hr
            have k2 := deref_same h
            refine Same.trans ?_ k2
            obtain ⟨k1, k2, k3, k4, k5, k6, k7, k8, k9, k10, k11, k12, k13, k14⟩ := k
            constructor <;> first | rfl | assumption
        · rw [if_neg (by unfold lowShutdown; exact fun a => hh (of_decide_eq_true a))] at h
          rw [if_neg hh]
          exact deref_same h

/-! ## Connections, in all runs -/

/-- Whether the accepter was started and was not shut down or freed since. -/
def isOpen (l : List Ev) : Bool :=
  l.foldl (fun b e => match e with
    | .start true => true
    | .shutdown _ true => false
    | .free => false
    | _ => b) false

theorem isOpen_snoc {l : List Ev} {e : Ev} : isOpen (l ++ [e]) = match e with
    | .start true => true
    | .shutdown _ true => false
    | .free => false
    | _ => isOpen l := by
  simp only [isOpen, List.foldl_append, List.foldl_cons, List.foldl_nil]

/-- Connections were given to the user only when the accepter was open. -/
def connOk (l : List Ev) : Prop := ∀ a b, l = a ++ .newConn :: b → isOpen a = true

theorem connOk_snoc {l : List Ev} {e : Ev} (h : connOk l) (he : e = .newConn → isOpen l = true) : connOk (l ++ [e]) := by
  intro a b hab
  rcases List.eq_nil_or_concat b with rfl | ⟨b', x, rfl⟩
  · have := List.append_inj' hab rfl
    obtain ⟨rfl, h2⟩ := this
    simp only [List.cons.injEq, and_true] at h2
    exact he h2
  · rw [List.concat_eq_append, ← List.cons_append, ← List.append_assoc] at hab
    have := List.append_inj' hab rfl
    exact h a b' this.1

/-- The invariant. -/
def Conn (s : A) : Prop := connOk s.log ∧ (s.st = .opened → isOpen s.log = true)

theorem Conn.same {s t : A} (h : Conn s) (k : Same s t) : Conn t := by
  unfold Conn; rw [k.log, k.st]; exact h

theorem Conn.finish {s : A} (h : Conn s) : Conn (finishShut s) := by
  unfold finishShut
  split
  · exact ⟨connOk_snoc h.1 (fun hh => by cases hh), fun hh => by cases hh⟩
  · exact ⟨h.1, fun hh => by cases hh⟩

theorem Conn.leave {s : A} (h : Conn s) : Conn (leaveCore s) := by
  unfold leaveCore
  split
  · exact Conn.finish (s := { s with inCb := 0 }) h
  · exact h

theorem Conn.step {leaf : Bool} {s s' : A} {op : Op} (hi : Conn s) (h : step leaf s op = some s') : Conn s' := by
  refine Conn.same ?_ (step_core h).1
  obtain ⟨h1, h2⟩ := hi
  have sn (e : Ev) (he : e ≠ .newConn) : connOk (s.log ++ [e]) := connOk_snoc h1 fun x => absurd x he
  cases op <;> simp only [core]
  case lowEn => exact ⟨sn _ (by simp), by simpa [A.say, isOpen_snoc] using h2⟩
  case shutCont => exact ⟨h1, h2⟩
  case enCont => exact Conn.leave (s := { s with inEn := s.inEn - 1 }) ⟨h1, h2⟩
  case connCont => exact Conn.leave (s := { s with inConn := s.inConn - 1, inCb := s.inCb - 1 }) ⟨h1, h2⟩
  all_goals repeat' split
  all_goals first
    | exact ⟨h1, h2⟩
    | exact Conn.finish (s := { s with low := .closed }) ⟨h1, h2⟩
    | exact Conn.leave (s := { s with opening := s.opening - 1 }) ⟨h1, h2⟩
    | exact ⟨connOk_snoc h1 fun _ => h2 (by grind), by simpa [A.say, isOpen_snoc] using h2⟩
    | (refine ⟨sn _ (by simp), ?_⟩; simp [A.say, isOpen_snoc] at h2 ⊢; done)
    | (refine ⟨sn _ (by simp), ?_⟩; simp [A.say, isOpen_snoc] at h2 ⊢; grind)

/-! ## Runs in which an accepter is not started again after a shutdown that waited for a callback -/

/-- What is not done: a start after a shutdown that had to wait for a callback; and, on a child accepter, an enable without a callback
while one with a callback is to be answered, and a shutdown that the child refuses. -/
def calm (leaf : Bool) (s : A) : Op → Prop
  | .startup _ => s.callShut = false
  | .enable none _ => leaf = true ∨ s.lowEn = 0
  | .shutdown _ lerr => lerr = 0
  | _ => True

/-- Where the user thinks the accepter is. -/
inductive Ph | closed | opened | shutting (id : Nat) | freed
deriving Repr, DecidableEq

/-- What may come in which order. -/
def track (p : Ph) : Ev → Option Ph
  | .start true => if p = .closed then some .opened else none
  | .shutdown id true => if p = .opened then some (.shutting id) else none
  | .shutdownCb id => if p = .shutting id then some .closed else none
  | .newConn => if p = .opened then some .opened else none
  | .free => if p = .freed then none else some .freed
  | _ => some p

/-- The phase that belongs to a state. -/
def phOf (freed : Bool) (st : St) (sd : Option Nat) : Ph :=
  if freed then .freed else match st, sd with
    | .closed, _ => .closed
    | .opened, _ => .opened
    | .inShutdown, some id => .shutting id
    | .inShutdown, none => .closed

/-- The invariant in these runs. -/
structure Told (leaf : Bool) (s : A) : Prop where
  tr : s.log.foldlM track .closed = some (phOf s.freed s.st s.shutDone)
  sd : s.shutDone.isSome = true ↔ (s.st = .inShutdown ∧ s.freed = false)
  lc : s.st = .closed → s.low = .closed ∨ (leaf = false ∧ s.freed = true)
  cs : s.callShut = true → s.st ≠ .opened
  ga : leaf = false → s.lowEn ≠ 0 → s.gen = true
  nl : s.low = .closing → s.callShut = false

theorem Told.init {leaf : Bool} : Told leaf init := by
  constructor <;> simp [Acc.init, phOf]

theorem Told.same {leaf : Bool} {s t : A} (h : Told leaf s) (k : Same s t) : Told leaf t := by
  obtain ⟨h1, h2, h3, h4, h5, h6⟩ := h
  constructor
  · rw [k.log, k.freed, k.st, k.shutDone]; exact h1
  · rw [k.freed, k.st, k.shutDone]; exact h2
  · rw [k.freed, k.st, k.low]; exact h3
  · rw [k.callShut, k.st]; exact h4
  · rw [k.lowEn, k.gen]; exact h5
  · rw [k.low, k.callShut]; exact h6

theorem Told.finish {leaf : Bool} {s : A} (h : Told leaf s) (hl : s.low = .closed ∨ (leaf = false ∧ s.freed = true)) (hs : s.st ≠ .opened) :
    Told leaf (finishShut s) := by
  obtain ⟨h1, h2, h3, h4, h5, h6⟩ := h
  unfold finishShut
  cases hd : s.shutDone with
  | none =>
    dsimp only
    rw [hd] at h1 h2
    have hx : s.freed = true ∨ s.st = .closed := by
      cases hf : s.freed
      · cases hst : s.st
        · exact .inr rfl
        · exact absurd hst hs
        · simp [hf, hst] at h2
      · exact .inl rfl
    constructor
    · dsimp only
      rw [h1]
      rcases hx with x | x <;> simp [x, phOf]
    · simp
    · intro _; exact hl
    · simp
    · exact h5
    · exact h6
  | some id =>
    dsimp only
    rw [hd] at h1 h2
    obtain ⟨x, y⟩ := h2.mp rfl
    constructor
    · simp only [A.say, foldlM_snoc, h1, x, y, phOf]
      simp [track]
    · simp
    · intro _; exact hl
    · simp
    · exact h5
    · exact h6

theorem Told.step {leaf : Bool} {s s' : A} {op : Op} (hi : Told leaf s) (ci : Cnt s) (hc : can leaf s op = true) (hp : calm leaf s op)
    (h : step leaf s op = some s') : Told leaf s' := by
  refine Told.same ?_ (step_core h).1
  have hi' := hi
  obtain ⟨h1, h2, h3, h4, h5, h6⟩ := hi
  obtain ⟨c1, c2, c3, c4, c5, c6, c7⟩ := ci
  -- the end of a callback
  have lv : ∀ t : A, Told leaf t → (t.st = .inShutdown → t.low = .closing ∨ t.low = .closed) → Told leaf (leaveCore t) := by
    intro t ht hq
    unfold leaveCore
    split
    · rename_i hh
      have hne := ht.cs hh.2
      refine Told.finish (s := { t with inCb := 0 }) ⟨ht.1, ht.2, ht.3, ht.4, ht.5, ht.6⟩ ?_ hne
      cases hst : t.st
      · exact ht.lc hst
      · exact absurd hst hne
      · rcases hq hst with a | a
        · have := ht.nl a; rw [this] at hh; cases hh.2
        · exact .inl a
    · exact ⟨ht.1, ht.2, ht.3, ht.4, ht.5, ht.6⟩
  have c7' : s.st = .inShutdown → s.low = .closing ∨ s.low = .closed := fun x => (c7 x).imp id (·.1)
  cases op with
  | startup lerr =>
    have hf : s.freed = false := by simpa [can] using hc
    have hcs : s.callShut = false := hp
    dsimp only [core]
    split
    · rename_i hst
      constructor
      · simp only [A.say, foldlM_snoc, h1]; rfl
      all_goals assumption
    · rename_i hst
      have hst : s.st = .closed := by simpa using hst
      have hsd : s.shutDone = none := by
        cases hx : s.shutDone with
        | none => rfl
        | some _ => rw [hx, hst] at h2; simp at h2
      split
      · constructor
        · simp only [A.say, foldlM_snoc, h1, hf, hst]; rfl
        · simp [A.say, hst]
        all_goals assumption
      · constructor
        · simp only [A.say, foldlM_snoc, h1, hf, hst, hsd, phOf]; rfl
        · simp [A.say]
        · intro hh; cases hh
        · intro hh; rw [show (s.say (.start true)).callShut = s.callShut from rfl, hcs] at hh; cases hh
        · exact h5
        · intro hh; cases hh
  | shutdown id lerr =>
    have hf : s.freed = false := by simp [can] at hc; exact hc.1
    have hl0 : lerr = 0 := hp
    dsimp only [core]
    split
    · rename_i hst
      have hlo := (c6 hst).1
      rw [if_pos ⟨hl0, hlo⟩]
      have hcs : s.callShut = false := by
        cases hx : s.callShut
        · rfl
        · exact absurd hst (h4 hx)
      constructor
      · simp only [A.say, foldlM_snoc, h1, hf, hst, phOf]; rfl
      · simp [A.say, hf]
      · intro hh; cases hh
      · intro _ hh; cases hh
      · exact h5
      · intro _; exact hcs
    · constructor
      · simp only [A.say, foldlM_snoc, h1]; rfl
      all_goals assumption
  | lowShut =>
    have hl : s.low = .closing := by simpa [can] using hc
    have hne : s.st ≠ .opened := fun hh => by rw [(c6 hh).1] at hl; cases hl
    dsimp only [core]
    split
    · exact ⟨h1, h2, fun _ => .inl rfl, fun _ => hne, h5, fun hh => by cases hh⟩
    · exact Told.finish (s := { s with low := .closed }) ⟨h1, h2, fun _ => .inl rfl, h4, h5, fun hh => by cases hh⟩ (.inl rfl) hne
  | shutCont => exact ⟨h1, h2, h3, h4, h5, h6⟩
  | enable done lerr =>
    have tk : ∀ b, track (phOf s.freed s.st s.shutDone) (.enable done b) = some (phOf s.freed s.st s.shutDone) := fun _ => rfl
    dsimp only [core]
    split
    · constructor
      · simp only [A.say, foldlM_snoc, h1]; rfl
      all_goals assumption
    · rename_i hn
      split
      · rename_i hr
        constructor
        · simp only [A.say, foldlM_snoc, h1]; rfl
        · exact h2
        · exact h3
        · exact h4
        · intro hleaf hl
          subst hleaf
          cases done with
          | none => exact absurd (hp.resolve_left (by simp)) hl
          | some _ => rfl
        · exact h6
      · split
        · constructor
          · simp only [A.say, foldlM_snoc, h1]; rfl
          · exact h2
          · exact h3
          · exact h4
          · intro hleaf _
            subst hleaf; rfl
          · exact h6
        · rename_i hd
          have hd : done = none := by simpa using hd
          subst hd
          constructor
          · simp only [A.say, foldlM_snoc, h1]; rfl
          · exact h2
          · exact h3
          · exact h4
          · intro hleaf hl
            exact absurd (hp.resolve_left (by simp [hleaf])) hl
          · exact h6
  | lowEn =>
    have hl : s.lowEn ≠ 0 := by simpa [can] using hc
    constructor
    · simp only [core, A.say, foldlM_snoc, h1]; rfl
    · exact h2
    · exact h3
    · exact h4
    · intro a _; exact h5 a hl
    · exact h6
  | enCont => exact lv { s with inEn := s.inEn - 1 } ⟨h1, h2, h3, h4, h5, h6⟩ c7'
  | newChild err =>
    dsimp only [core]
    split
    · exact hi'
    · exact ⟨h1, h2, h3, h4, h5, h6⟩
  | openDone err =>
    dsimp only [core]
    split
    · rename_i hh
      have hf := (c6 hh.2).2
      constructor
      · simp only [A.say, foldlM_snoc, h1, hf, hh.2, phOf]; rfl
      all_goals assumption
    · exact lv { s with opening := s.opening - 1 } ⟨h1, h2, h3, h4, h5, h6⟩ c7'
  | connCont => exact lv { s with inConn := s.inConn - 1, inCb := s.inCb - 1 } ⟨h1, h2, h3, h4, h5, h6⟩ c7'
  | free lerr =>
    have hf : s.freed = false := by simp [can] at hc; exact hc.1
    have tr : ∀ st sd, (s.log ++ [Ev.free]).foldlM track .closed = some (phOf true st sd) := by
      intro st sd
      rw [foldlM_snoc, h1, hf]
      cases s.st <;> cases s.shutDone <;> rfl
    have sdn : s.st ≠ .inShutdown → s.shutDone = none := by
      intro hx
      cases hd : s.shutDone with
      | none => rfl
      | some _ => rw [hd] at h2; exact absurd (h2.mp rfl).1 hx
    simp only [core]
    split
    · rename_i hst
      constructor
      · exact tr _ _
      · simp [A.say, sdn (by rw [hst]; simp)]
      · intro x; exact (h3 x).imp id fun y => ⟨y.1, rfl⟩
      all_goals assumption
    · rename_i hst
      constructor
      · exact tr _ _
      · simp
      · intro x; exact (h3 x).imp id fun y => ⟨y.1, rfl⟩
      all_goals assumption
    · rename_i hst
      have hcs : s.callShut = false := by
        cases hx : s.callShut
        · rfl
        · exact absurd hst (h4 hx)
      split
      · constructor
        · exact tr _ _
        · simp [A.say, sdn (by rw [hst]; simp)]
        · intro x; cases x
        · intro _ x; cases x
        · exact h5
        · intro _; exact hcs
      · rename_i hn
        constructor
        · exact tr _ _
        · simp [A.say, sdn (by rw [hst]; simp)]
        · intro _
          refine .inr ⟨?_, rfl⟩
          cases leaf
          · rfl
          · simp [can] at hc
            exact absurd ⟨hc.2, (c6 hst).1⟩ hn
        · intro _ x; cases x
        · exact h5
        · exact h6

/-! ## No faults -/

/-- The last reference of a leaf is not released while its sockets are open. -/
theorem deref_ok {leaf : Bool} {s : A} (h0 : s.ref ≠ 0) (hl : leaf = true → s.ref = 1 → s.low = .closed) : ∃ t, deref leaf s = some t := by
  unfold deref
  rw [if_neg h0]
  split
  · rename_i h1
    rw [if_neg fun a => a.2 (hl a.1 h1)]
    exact ⟨_, rfl⟩
  · exact ⟨_, rfl⟩

theorem leave_ok {leaf : Bool} {s : A} (hb : s.inCb ≠ 0) (h0 : s.ref ≠ 0) (hl : leaf = true → s.ref = 1 → s.low = .closed) :
    ∃ t, leaveCb leaf s = some t := by
  unfold leaveCb
  rw [if_neg hb]
  dsimp only
  split
  · exact ⟨_, rfl⟩
  · exact deref_ok h0 hl

theorem step_ok {leaf : Bool} {s : A} {op : Op} (hi : Told leaf s) (ci : Cnt s) (hc : can leaf s op = true) : ∃ t, step leaf s op = some t := by
  obtain ⟨h1, h2, h3, h4, h5, h6⟩ := hi
  obtain ⟨c1, c2, c3, c4, c5, c6, c7⟩ := ci
  have hb1 : s.freed = false → b2n (!s.freed) = 1 := fun x => by rw [x]; rfl
  have hl1 : s.low = .closing → s.low.n = 1 := fun x => by rw [x]; rfl
  have hg : s.gone = false := by
    cases hx : s.gone
    · rfl
    · have h0 := c3.mp hx
      rw [h0] at c1
      cases op <;> simp only [can, Bool.and_eq_true, Bool.not_eq_true', decide_eq_true_eq, ne_eq, hx] at hc
      all_goals first
        | omega
        | (have := hb1 hc; omega)
        | (have := hb1 hc.1; omega)
        | (have := hl1 hc; omega)
        | (simp at hc; done)
  have h0 : s.ref ≠ 0 := fun x => by rw [c3.mpr x] at hg; cases hg
  -- open sockets of a leaf
  have os : leaf = true → s.low = .opened → s.st = .opened := by
    intro hleaf hx
    cases hst : s.st
    · rcases h3 hst with a | a
      · rw [hx] at a; cases a
      · rw [hleaf] at a; cases a.1
    · rfl
    · rcases c7 hst with a | a
      · rw [hx] at a; cases a
      · rw [hx] at a; cases a.1
  -- the last reference
  have last : s.opening + s.inConn + s.inEn + s.inShut ≠ 0 → leaf = true → s.ref = 1 → s.low = .closed := by
    intro hn hleaf h1
    cases hx : s.low
    · rfl
    · have := hb1 (c6 (os hleaf hx)).2
      omega
    · have := hl1 hx; omega
  have lv : ∀ t : A, t.inCb ≠ 0 → t.ref = s.ref → t.low = s.low → s.opening + s.inConn + s.inEn + s.inShut ≠ 0 → ∃ u, leaveCb leaf t = some u := by
    intro t ht hr hl hn
    refine leave_ok ht (by rw [hr]; exact h0) ?_
    rw [hr, hl]; exact last hn
  unfold step
  rw [if_neg (by rw [hg]; simp)]
  cases op with
  | startup lerr =>
    simp only [can, Bool.not_eq_true'] at hc
    dsimp only
    rw [if_neg (by rw [hc]; simp)]
    split
    · exact ⟨_, rfl⟩
    · split <;> exact ⟨_, rfl⟩
  | shutdown id lerr =>
    dsimp only [Acc.shutdown]
    split
    · split
      · unfold ref; rw [if_neg h0]; exact ⟨_, rfl⟩
      · exact ⟨_, rfl⟩
    · exact ⟨_, rfl⟩
  | lowShut =>
    dsimp only
    split
    · exact deref_ok h0 fun _ _ => rfl
    · exact ⟨_, rfl⟩
  | shutCont =>
    have hn : s.inShut ≠ 0 := by simpa [can] using hc
    exact deref_ok h0 (last (by omega))
  | enable done lerr =>
    dsimp only [Acc.enable]
    split
    · exact ⟨_, rfl⟩
    · split
      · exact ⟨_, rfl⟩
      · split
        · unfold enterCb ref; rw [if_neg (by exact h0)]; exact ⟨_, rfl⟩
        · exact ⟨_, rfl⟩
  | lowEn =>
    have hn : s.lowEn ≠ 0 := by simpa [can] using hc
    have he := c5 hn
    dsimp only
    rw [if_neg]
    · cases hx : s.enDone with
      | none => rw [hx] at he; cases he
      | some id => exact ⟨_, rfl⟩
    · intro a
      have := h5 (by simpa using a.1) hn
      rw [this] at a; cases a.2
  | enCont =>
    have hn : s.inEn ≠ 0 := by simpa [can] using hc
    exact lv _ (by dsimp only; omega) rfl rfl (by omega)
  | newChild err =>
    dsimp only
    split
    · exact ⟨_, rfl⟩
    · unfold enterCb ref; rw [if_neg h0]; exact ⟨_, rfl⟩
  | openDone err =>
    have hn : s.opening ≠ 0 := by simpa [can] using hc
    dsimp only
    split
    · exact lv _ (by dsimp only; omega) rfl rfl (by omega)
    · split
      · exact ⟨_, rfl⟩
      · exact lv _ (by dsimp only; omega) rfl rfl (by omega)
  | connCont =>
    have hn : s.inConn ≠ 0 := by simpa [can] using hc
    dsimp only
    rw [if_neg (by omega)]
    exact lv _ (by dsimp only; omega) rfl rfl (by omega)
  | free lerr =>
    have hf : s.freed = false := by simp [can] at hc; exact hc.1
    have hb := hb1 hf
    dsimp only [Acc.free]
    rw [if_neg (by rw [hf]; simp)]
    split
    · rename_i hs
      have hs : s.st = .closed := hs
      refine deref_ok h0 fun hleaf _ => ?_
      rcases h3 hs with a | a
      · exact a
      · rw [hleaf] at a; cases a.1
    · rename_i hs
      have hs : s.st = .inShutdown := hs
      refine deref_ok h0 fun hleaf h1 => ?_
      have h1 : s.ref = 1 := h1
      rcases c7 hs with a | a
      · have := hl1 a; omega
      · exact a.1
    · rename_i hs
      have hs : s.st = .opened := hs
      split
      · unfold ref
        rw [if_neg (by exact h0)]
        refine deref_ok (by dsimp only [A.say]; omega) fun _ h1 => ?_
        have h1 : s.ref + 1 = 1 := h1
        omega
      · rename_i hn
        refine deref_ok h0 fun hleaf h1 => ?_
        exfalso
        apply hn
        unfold lowShutdown
        simp [can, hleaf] at hc
        exact decide_eq_true ⟨hc.2, (c6 hs).1⟩

end Gensio.Acc
