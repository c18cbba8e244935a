import Verif.Model.Ll2
/-!
# Properties of the lower layer with two children (C187–C189)

`Polite` is what one open and its close are: nothing is opened again, and closed only once (`gensio_base.c` keeps to the second).
-/
namespace Gensio.Ll2

/-- One open, one close. -/
def Polite (l : L) : Op → Prop
  | .open _ _ => l.log = []
  | .close => Ev.closeReq ∉ l.log
  | _ => True

/-- What a child is in an open: being opened, open, or not (then there is an error). -/
inductive K | wait | ok | bad
deriving DecidableEq

/-- The child. -/
def K.ch : K → Ch
  | .wait => .opening
  | .ok => .opened
  | .bad => .closed

/-- The flag for it. -/
def K.flag (k : K) : Bool := k = .ok

/-- A report is expected. -/
def K.n (k : K) : Nat := if k = .wait then 1 else 0

/-- Closing or closed. -/
def cch (h : Hd) (b : Bool) : Ch := if b then .closing h else .closed

/-- The states of one open and its close. -/
inductive Inv : L → Prop
  | start (n : Nat) : Inv { opens := n }
  | opening (st : St) (err : Option Nat) (i o : K) : (st = .inOpen ∨ st = .openErr ∨ st = .openClose) → (i = .wait ∨ o = .wait) → (i = .bad ∨ o = .bad → err.isSome) →
      (st = .openErr → err.isSome) →
      Inv { st, err, opens := i.n + o.n, inOp := i.flag, outOp := o.flag, cin := i.ch, cout := o.ch, log := if st = .openClose then [.openReq, .closeReq] else [.openReq] }
  | undo (st : St) (err : Option Nat) (f g i o : Bool) : (st = .openErr ∨ st = .openClose) → (i = true ∨ o = true) → (st = .openErr → err.isSome) →
      Inv { st, err, closes := i.toNat + o.toNat, inOp := f, outOp := g, cin := cch .failed i, cout := cch .failed o,
            log := if st = .openClose then [.openReq, .closeReq] else [.openReq] }
  | failed (err : Option Nat) (f g c : Bool) : (c = false → err.isSome) →
      Inv { err, inOp := f, outOp := g, log := if c then [.openReq, .closeReq, .openDone err] else [.openReq, .openDone err] }
  | isOpen : Inv { st := .open, inOp := true, outOp := true, cin := .opened, cout := .opened, log := [.openReq, .openDone none] }
  | closing (i o : Bool) : (i = true ∨ o = true) →
      Inv { st := .open, closes := i.toNat + o.toNat, inOp := true, outOp := true, cin := cch .normal i, cout := cch .normal o,
            log := [.openReq, .openDone none, .closeReq] }
  | closed : Inv { st := .open, inOp := true, outOp := true, log := [.openReq, .openDone none, .closeReq, .closeDone] }

theorem Inv.cast {l l' : L} (h : Inv l) (e : l' = l) : Inv l' := e ▸ h

theorem step_inv {l : L} {o : Op} (h : Inv l) (hp : Polite l o) : ∃ l' r, step l o = some (l', r) ∧ Inv l' := by
  cases h with
  | start n =>
    cases o with
    | «open» ri ro =>
      cases ri with
      | some e => exact ⟨_, _, rfl, .start 2⟩
      | none =>
        cases ro with
        | some e => exact ⟨_, _, rfl, .opening .openErr (some e) .wait .bad (by simp) (by simp) (by simp) (by simp)⟩
        | none => exact ⟨_, _, rfl, .opening .inOpen none .wait .wait (by simp) (by simp) (by simp) (by simp)⟩
    | close => exact ⟨_, _, rfl, .start n⟩
    | opened b e => cases b <;> exact ⟨_, _, rfl, .start n⟩
    | closed b => cases b <;> exact ⟨_, _, rfl, .start n⟩
  | opening st err i o hs hw hb he =>
    rename_i op
    cases op with
    | «open» ri ro => exfalso; simp only [Polite] at hp; split at hp <;> cases hp
    | close =>
      rcases hs with rfl | rfl | rfl
      · exact ⟨_, _, rfl, .opening .openClose err i o (by simp [L.setChild]) hw hb (by simp [L.setChild])⟩
      · exact ⟨_, _, rfl, .opening .openClose err i o (by simp [L.setChild]) hw hb (by simp [L.setChild])⟩
      · simp [Polite] at hp
    | closed b =>
      cases b <;> cases i <;> cases o <;> exact ⟨_, _, rfl, .opening st err _ _ hs hw hb he⟩
    | opened b e =>
      rcases hs with rfl | rfl | rfl <;> cases err <;> cases i <;> cases o <;> cases b <;> cases e <;>
        first
        | (exfalso; simp at hw; done)
        | (exfalso; simp at hb; done)
        | (exfalso; simp at he; done)
        | exact ⟨_, _, rfl, .opening _ _ .wait .wait (by simp [L.setChild]) (by simp [L.setChild]) (by simp [L.setChild]) (by simp [L.setChild])⟩
        | exact ⟨_, _, rfl, .opening _ _ .wait .ok (by simp [L.setChild]) (by simp [L.setChild]) (by simp [L.setChild]) (by simp [L.setChild])⟩
        | exact ⟨_, _, rfl, .opening _ _ .wait .bad (by simp [L.setChild]) (by simp [L.setChild]) (by simp [L.setChild]) (by simp [L.setChild])⟩
        | exact ⟨_, _, rfl, .opening _ _ .ok .wait (by simp [L.setChild]) (by simp [L.setChild]) (by simp [L.setChild]) (by simp [L.setChild])⟩
        | exact ⟨_, _, rfl, .opening _ _ .bad .wait (by simp [L.setChild]) (by simp [L.setChild]) (by simp [L.setChild]) (by simp [L.setChild])⟩
        | exact ⟨_, _, rfl, .isOpen⟩
        | exact ⟨_, _, rfl, .failed _ _ _ true (by simp [L.setChild])⟩
        | exact ⟨_, _, rfl, .failed _ _ _ false (by simp [L.setChild])⟩
        | exact ⟨_, _, rfl, .undo _ _ _ _ true true (by simp [L.setChild]) (by simp [L.setChild]) (by simp [L.setChild])⟩
        | exact ⟨_, _, rfl, .undo _ _ _ _ true false (by simp [L.setChild]) (by simp [L.setChild]) (by simp [L.setChild])⟩
        | exact ⟨_, _, rfl, .undo _ _ _ _ false true (by simp [L.setChild]) (by simp [L.setChild]) (by simp [L.setChild])⟩
  | undo st err f g i o hs hw he =>
    rename_i op
    cases op with
    | «open» ri ro => exfalso; simp only [Polite] at hp; split at hp <;> cases hp
    | close =>
      rcases hs with rfl | rfl
      · exact ⟨_, _, rfl, .undo .openClose err f g i o (by simp) hw (by simp)⟩
      · simp [Polite] at hp
    | opened b e => cases b <;> cases i <;> cases o <;> exact ⟨_, _, rfl, .undo st err f g _ _ hs hw he⟩
    | closed b =>
      rcases hs with rfl | rfl <;> cases i <;> cases o <;> cases b <;>
        first
        | (exfalso; simp at hw; done)
        | exact ⟨_, _, rfl, .undo _ err f g true true (by simp [L.setChild]) (by simp) he⟩
        | exact ⟨_, _, rfl, .undo _ err f g true false (by simp [L.setChild]) (by simp) he⟩
        | exact ⟨_, _, rfl, .undo _ err f g false true (by simp [L.setChild]) (by simp) he⟩
        | exact ⟨_, _, rfl, .failed err f g true (by simp)⟩
        | exact ⟨_, _, rfl, .failed err f g false (by simpa using he)⟩
  | failed err f g c hc =>
    cases o with
    | «open» ri ro => exfalso; simp only [Polite] at hp; split at hp <;> cases hp
    | close => exact ⟨_, _, rfl, .failed err f g c hc⟩
    | opened b e => cases b <;> exact ⟨_, _, rfl, .failed err f g c hc⟩
    | closed b => cases b <;> exact ⟨_, _, rfl, .failed err f g c hc⟩
  | isOpen =>
    cases o with
    | «open» ri ro => simp [Polite] at hp
    | close => exact ⟨_, _, rfl, .closing true true (by simp)⟩
    | opened b e => cases b <;> exact ⟨_, _, rfl, .isOpen⟩
    | closed b => cases b <;> exact ⟨_, _, rfl, .isOpen⟩
  | closing i o hw =>
    rename_i op
    cases op with
    | «open» ri ro => simp [Polite] at hp
    | close => simp [Polite] at hp
    | opened b e => cases b <;> cases i <;> cases o <;> exact ⟨_, _, rfl, .closing _ _ hw⟩
    | closed b =>
      cases i <;> cases o <;> cases b <;>
        first
        | (exfalso; simp at hw; done)
        | exact ⟨_, _, rfl, .closing true true (by simp)⟩
        | exact ⟨_, _, rfl, .closing true false (by simp)⟩
        | exact ⟨_, _, rfl, .closing false true (by simp)⟩
        | exact ⟨_, _, rfl, .closed⟩
  | closed =>
    cases o with
    | «open» ri ro => simp [Polite] at hp
    | close => simp [Polite] at hp
    | opened b e => cases b <;> exact ⟨_, _, rfl, .closed⟩
    | closed b => cases b <;> exact ⟨_, _, rfl, .closed⟩

/-- All steps are polite. -/
def AllPolite (l : L) : List Op → Prop
  | [] => True
  | o :: os => Polite l o ∧ ∀ l' r, step l o = some (l', r) → AllPolite l' os

theorem run_inv {l : L} {os : List Op} (h : Inv l) (hp : AllPolite l os) : ∃ l', run l os = some l' ∧ Inv l' := by
  induction os generalizing l with
  | nil => exact ⟨l, rfl, h⟩
  | cons o os ih =>
    obtain ⟨l1, r, q, h1⟩ := step_inv h hp.1
    obtain ⟨l2, q2, h2⟩ := ih h1 (hp.2 l1 r q)
    refine ⟨l2, ?_, h2⟩
    unfold run
    rw [q]
    exact q2

/-! ## C187: one open -/

/-- One open and its close, in any interleaving with the reports of the children: nothing fails, and when the children have nothing
more to report, an open that was accepted was reported exactly once; with success only if both children are open or a close was asked for;
and if it failed, both children are closed.  Missing: a close while it is opened is not reported, see below. -/
theorem C187_open_partial {os : List Op} (hp : AllPolite {} os) :
    ∃ l, run {} os = some l ∧ (l.quiet = true → .openReq ∈ l.log → ∃ e, l.log.filter (fun x => x matches .openDone _) = [.openDone e] ∧
      (e.isSome → l.cin = .closed ∧ l.cout = .closed) ∧ (e = none → .closeReq ∉ l.log → l.cin = .opened ∧ l.cout = .opened)) ∧
      (l.log.filter (fun x => x matches .openDone _)).length ≤ 1 := by
  obtain ⟨l, q, h⟩ := run_inv (.start 0) hp
  refine ⟨l, q, ?_⟩
  cases h with
  | start n => exact ⟨by simp, by simp⟩
  | opening st err i o hs hw hb he =>
    refine ⟨fun hq => ?_, by simp only; split <;> simp⟩
    rcases hw with rfl | rfl
    · simp [L.quiet, K.ch] at hq
    · simp [L.quiet, K.ch] at hq
  | undo st err f g i o hs hw he =>
    refine ⟨fun hq => ?_, by simp only; split <;> simp⟩
    rcases hw with rfl | rfl
    · simp [L.quiet, cch] at hq
    · simp [L.quiet, cch] at hq
  | failed err f g c hc =>
    cases c
    · exact ⟨fun _ _ => ⟨err, rfl, by simp, fun h => by simp [h] at hc⟩, by simp⟩
    · exact ⟨fun _ _ => ⟨err, rfl, by simp, by simp⟩, by simp⟩
  | isOpen => exact ⟨fun _ _ => ⟨none, rfl, by simp, by simp⟩, by simp⟩
  | closing i o hw => exact ⟨fun _ _ => ⟨none, rfl, by simp, by simp⟩, by simp⟩
  | closed => exact ⟨fun _ _ => ⟨none, rfl, by simp, by simp⟩, by simp⟩

/-- Both open, in any order; one fails and the other is closed again. -/
example : (match run {} [.open none none, .opened false none, .opened true none] with
    | some l => decide (l.log = [.openReq, .openDone none]) | none => false) = true ∧
  (match run {} [.open none none, .opened false none, .opened true (some 4), .closed false] with
    | some l => decide (l.log = [.openReq, .openDone (some 4)] ∧ l.st = .closed ∧ l.cout = .closed) | none => false) = true := by decide +kernel

/-! ## C188: one close -/

/-- A close of an open gensio is reported once, when both children are closed, and not before.  Missing: a close during the open. -/
theorem C188_close_partial {os : List Op} (hp : AllPolite {} os) :
    ∃ l, run {} os = some l ∧ (l.log.filter (· = .closeDone)).length ≤ 1 ∧ (.closeDone ∈ l.log → .closeReq ∈ l.log ∧ l.cin = .closed ∧ l.cout = .closed) ∧
      (l.quiet = true → [.openReq, .openDone none, .closeReq] <+: l.log → .closeDone ∈ l.log) := by
  obtain ⟨l, q, h⟩ := run_inv (.start 0) hp
  refine ⟨l, q, ?_⟩
  cases h with
  | start n => simp
  | opening st err i o hs hw hb he => simp only; split <;> simp
  | undo st err f g i o hs hw he => simp only; split <;> simp
  | failed err f g c hc => cases c <;> simp
  | isOpen => simp
  | closing i o hw =>
    refine ⟨by simp, by simp, fun hq => ?_⟩
    rcases hw with rfl | rfl
    · simp [L.quiet, cch] at hq
    · simp [L.quiet, cch] at hq
  | closed => simp

/-- A close while the gensio is opened is never reported: everything is closed, nothing is left to report, and instead of the close the
upper layer is told that the open succeeded. -/
theorem C188_close_in_open_violated :
    (match run {} [.open none none, .close, .opened true none, .opened false none, .closed true, .closed false] with
     | some l => decide (l.log = [.openReq, .closeReq, .openDone none] ∧ l.quiet = true ∧ l.cin = .closed ∧ l.cout = .closed ∧ l.st = .closed)
     | none => false) = true := by decide +kernel

/-- The same if both opens fail. -/
theorem C188_close_failed_violated :
    (match run {} [.open none none, .close, .opened true (some 4), .opened false (some 4)] with
     | some l => decide (l.log = [.openReq, .closeReq, .openDone (some 4)] ∧ l.quiet = true) | none => false) = true := by decide +kernel

/-- A normal close. -/
example : (match run {} [.open none none, .opened false none, .opened true none, .close, .closed true, .closed false] with
    | some l => decide (l.log = [.openReq, .openDone none, .closeReq, .closeDone]) | none => false) = true := by decide +kernel

/-! ## C189: more than one open -/

theorem stay_open {l l' : L} {o : Op} {r : Rv} (h : l.st = .open ∧ l.cin ≠ .closing .failed ∧ l.cout ≠ .closing .failed ∧ l.cin ≠ .opening ∧ l.cout ≠ .opening)
    (q : step l o = some (l', r)) :
    (l'.st = .open ∧ l'.cin ≠ .closing .failed ∧ l'.cout ≠ .closing .failed ∧ l'.cin ≠ .opening ∧ l'.cout ≠ .opening) ∧
      l'.log.filter (fun x => x matches .openReq) = l.log.filter (fun x => x matches .openReq) := by
  obtain ⟨h1, h2, h3, h4, h5⟩ := h
  have cc : ∀ {c d : Ch} {b : Bool}, c ≠ .closing .failed → c ≠ .opening → closeCh c .normal = some (d, b) → d ≠ .closing .failed ∧ d ≠ .opening := by
    intro c d b a1 a2 e
    cases c with
    | closed => cases e; exact ⟨a1, a2⟩
    | opening => cases e
    | opened => cases e; simp
    | closing h => cases e; exact ⟨a1, a2⟩
  cases o with
  | «open» ri ro =>
    simp only [step, L.open, h1] at q
    cases q
    exact ⟨⟨h1, h2, h3, h4, h5⟩, rfl⟩
  | close =>
    simp only [step, L.close, h1] at q
    obtain ⟨a, qa, q⟩ := Option.bind_eq_some_iff.1 q
    split at q
    · cases q
    · obtain ⟨b, qb, q⟩ := Option.bind_eq_some_iff.1 q
      split at q
      · cases q
      · cases q
        have x := cc h2 h4 (d := a.1) (b := a.2) qa
        have y := cc h3 h5 (d := b.1) (b := b.2) qb
        exact ⟨⟨rfl, x.1, y.1, x.2, y.2⟩, by simp [L.say]⟩
  | opened b e =>
    simp only [step] at q
    have : l.child b ≠ .opening := by cases b <;> simp [L.child, h4, h5]
    rw [if_neg this] at q
    cases q
    exact ⟨⟨h1, h2, h3, h4, h5⟩, rfl⟩
  | closed b =>
    simp only [step] at q
    split at q
    · unfold L.closeHandler at q
      split at q
      · cases q
      · simp only [Option.map_some] at q
        cases q
        cases b <;> (split <;> simp_all [L.setChild, L.say])
    · rename_i hc
      cases b
      · exact absurd hc h3
      · exact absurd hc h2
    · cases q
      exact ⟨⟨h1, h2, h3, h4, h5⟩, rfl⟩

/-- Once a gensio was opened it can not be opened again, whatever is done: `child_close` never leaves the state `LL_2GENSIO_OPEN`
(:239-246), so every later open is refused with `GE_INUSE`. -/
theorem C189_reopen_violated (os : List Op) (l : L) (q : run { st := .open, inOp := true, outOp := true, cin := .opened, cout := .opened } os = some l)
    (ri ro : Option Nat) : l.open ri ro = (l, 10) ∧ .openReq ∉ l.log := by
  have key : ∀ (os : List Op) (k l : L), (k.st = .open ∧ k.cin ≠ .closing .failed ∧ k.cout ≠ .closing .failed ∧ k.cin ≠ .opening ∧ k.cout ≠ .opening) →
      run k os = some l → l.st = .open ∧ l.log.filter (fun x => x matches .openReq) = k.log.filter (fun x => x matches .openReq) := by
    intro os
    induction os with
    | nil => intro k l h q; cases q; exact ⟨h.1, rfl⟩
    | cons o os ih =>
      intro k l h q
      unfold run at q
      obtain ⟨⟨k1, r⟩, q1, q⟩ := Option.bind_eq_some_iff.1 q
      obtain ⟨h1, e1⟩ := stay_open h q1
      obtain ⟨h2, e2⟩ := ih k1 l h1 q
      exact ⟨h2, e2.trans e1⟩
  obtain ⟨h, e⟩ := key os _ l (by simp) q
  refine ⟨by simp [L.open, h], fun hm => ?_⟩
  have : Ev.openReq ∈ l.log.filter (fun x => x matches .openReq) := List.mem_filter.2 ⟨hm, rfl⟩
  rw [e] at this
  simp at this

/-- After an open, a close and its report, a second close ends the program by an assertion (:242). -/
theorem C189_second_close_violated :
    (run {} [.open none none, .opened false none, .opened true none, .close, .closed true, .closed false]).isSome = true ∧
    run {} [.open none none, .opened false none, .opened true none, .close, .closed true, .closed false, .close] = none := by decide +kernel

/-- After an open that failed (`open_err` is never cleared, :139, :149) a further open fails too, with the old error, although both
children open. -/
theorem C189_old_error_violated :
    (match run {} [.open none none, .opened true (some 4), .opened false (some 4), .open none none, .opened true none, .opened false none, .closed true, .closed false] with
     | some l => decide (l.log = [.openReq, .openDone (some 4), .openReq, .openDone (some 4)] ∧ l.quiet = true) | none => false) = true := by decide +kernel

/-- And it may never be reported: `in_opened` is never cleared either, so a child that is closed is closed again, which is refused and
never reported. -/
theorem C189_hang_violated :
    (match run {} [.open none none, .opened true none, .opened false (some 4), .closed true, .open none none, .opened true (some 4), .opened false (some 4)] with
     | some l => decide (l.log = [.openReq, .openDone (some 4), .openReq] ∧ l.quiet = true ∧ l.cin = .closed ∧ l.cout = .closed ∧ l.closes = 1) | none => false) = true := by
  decide +kernel

theorem old_error {l l' : L} {o : Op} {r : Rv} (h : l.err.isSome = true) (q : step l o = some (l', r)) :
    l'.err.isSome = true ∧ ((.openDone none) ∈ l'.log → (.openDone none) ∈ l.log) := by
  cases o with
  | «open» ri ro =>
    simp only [step, L.open] at q
    split at q
    · cases q; exact ⟨h, id⟩
    · cases hi : openCh l.cin ri with
      | mk c e =>
        rw [hi] at q
        cases e with
        | some e => cases q; exact ⟨h, id⟩
        | none =>
          cases ho : openCh l.cout ro with
          | mk d e =>
            simp only [ho] at q
            cases e <;> cases q <;> simp_all [L.say]
  | close =>
    simp only [step, L.close] at q
    split at q
    all_goals first
      | (cases q; exact ⟨h, by simp [L.say]⟩)
      | skip
    obtain ⟨a, qa, q⟩ := Option.bind_eq_some_iff.1 q
    split at q
    · cases q
    · obtain ⟨b, qb, q⟩ := Option.bind_eq_some_iff.1 q
      split at q
      · cases q
      · cases q; exact ⟨h, by simp [L.say]⟩
  | opened b e =>
    simp only [step] at q
    split at q
    · obtain ⟨k, qk, q⟩ := Option.map_eq_some_iff.1 q
      cases q
      have main : ∀ (m : L), m.err.isSome = true → m.log = l.log →
          (if m.opens = 0 then none
            else if m.opens - 1 = 0 then
              if m.st = .openClose ∨ m.err.isSome then
                ({ m with opens := m.opens - 1 } : L).undoIn.bind fun a => (a.1.undoOut a.2).map fun b =>
                  if b.2 then (({ b.1 with st := .closed } : L).say (.openDone b.1.err))
                  else if b.1.st ≠ .openClose then { b.1 with st := .openErr } else b.1
              else some (({ m with opens := m.opens - 1, st := .open } : L).say (.openDone m.err))
            else some { m with opens := m.opens - 1 }) = some l' → l'.err.isSome = true ∧ ((.openDone none) ∈ l'.log → (.openDone none) ∈ l.log) := by
        intro m hm hl q
        split at q
        · cases q
        · split at q
          · rw [if_pos (.inr hm)] at q
            obtain ⟨a, qa, q⟩ := Option.bind_eq_some_iff.1 q
            obtain ⟨c, qc, q⟩ := Option.map_eq_some_iff.1 q
            have ha : a.1.err = m.err ∧ a.1.log = m.log := by
              unfold L.undoIn at qa
              split at qa
              · obtain ⟨x, _, qa⟩ := Option.map_eq_some_iff.1 qa; cases qa; exact ⟨rfl, rfl⟩
              · cases qa; exact ⟨rfl, rfl⟩
            have hc : c.1.err = a.1.err ∧ c.1.log = a.1.log := by
              unfold L.undoOut at qc
              split at qc
              · obtain ⟨x, _, qc⟩ := Option.map_eq_some_iff.1 qc; cases qc; exact ⟨rfl, rfl⟩
              · cases qc; exact ⟨rfl, rfl⟩
            have he : c.1.err = m.err := hc.1.trans ha.1
            have hl' : c.1.log = l.log := hc.2.trans (ha.2.trans hl)
            obtain ⟨y, hy⟩ := Option.isSome_iff_exists.1 hm
            split at q
            · subst q; simp [L.say, he, hy, hl']
            · split at q <;> subst q
              · exact ⟨by simp only; rw [he]; exact hm, by simp only; rw [hl']; exact id⟩
              · exact ⟨by rw [he]; exact hm, by rw [hl']; exact id⟩
          · cases q; exact ⟨hm, by simp only; rw [hl]; exact id⟩
      cases b with
      | false =>
        cases e with
        | none => exact main { l with cout := .opened, outOp := true } h rfl qk
        | some e => exact main { l with cout := .closed, err := some e } rfl rfl qk
      | true =>
        cases e with
        | none => exact main { l with cin := .opened, inOp := true } h rfl qk
        | some e => exact main { l with cin := .closed, err := some e } rfl rfl qk
    · cases q; exact ⟨h, id⟩
  | closed b =>
    have hs : ∀ b c, (l.setChild b c).err = l.err ∧ (l.setChild b c).log = l.log := by intro b c; cases b <;> exact ⟨rfl, rfl⟩
    simp only [step] at q
    split at q
    · obtain ⟨k, qk, q⟩ := Option.map_eq_some_iff.1 q
      cases q
      unfold L.closeHandler at qk
      split at qk
      · cases qk
      · simp only at qk
        cases qk
        split <;> simp [L.say, (hs b .closed).1, (hs b .closed).2, h]
    · obtain ⟨k, qk, q⟩ := Option.map_eq_some_iff.1 q
      cases q
      unfold L.openCloseHandler at qk
      split at qk
      · cases qk
      · obtain ⟨y, hy⟩ := Option.isSome_iff_exists.1 h
        simp only at qk
        split at qk
        · cases qk; simp [L.say, (hs b .closed).1, (hs b .closed).2, hy]
        · cases qk; simp [(hs b .closed).1, (hs b .closed).2, h]
    · cases q; exact ⟨h, id⟩

/-- After one failed open none is ever reported as successful again, whatever is done. -/
theorem C189_never_again_violated (os : List Op) : ∀ (l l' : L), l.err.isSome = true → run l os = some l' → (.openDone none) ∈ l'.log → (.openDone none) ∈ l.log := by
  induction os with
  | nil => intro l l' _ q; cases q; exact id
  | cons o os ih =>
    intro l l' h q
    unfold run at q
    obtain ⟨⟨k, r⟩, q1, q⟩ := Option.bind_eq_some_iff.1 q
    obtain ⟨h1, h2⟩ := old_error h q1
    exact fun hm => h2 (ih k l' h1 q hm)

end Gensio.Ll2
