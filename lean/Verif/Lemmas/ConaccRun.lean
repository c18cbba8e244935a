import Verif.Lemmas.Conacc

/-!
# Runs of the accepter that makes connections

A shutdown can always be ended by what is not the user, what was asked for is reported once, and an accepter that is enabled
keeps trying.
-/
namespace Gensio.Conacc

/-- All of a run is careful. -/
def Careful (s : Na) : List Op → Prop
  | [] => True
  | o :: os => careful s o ∧ ∀ s', step s o = some s' → Careful s' os

theorem run_good {s : Na} {p} (h : Inv s p) : ∀ {ops}, Careful s ops → Good (run s ops) := by
  intro ops
  induction ops generalizing s p with
  | nil => intro _; exact Good.mk' p h
  | cons o os ih =>
    rintro ⟨h1, h2⟩
    obtain ⟨s', p', e, hi⟩ := step_good h o h1
    simp only [run, e, Option.bind_some]
    exact ih hi (h2 s' e)

theorem run_inv {r : Bool} {ops s} (hc : Careful (init r) ops) (he : run (init r) ops = some s) : ∃ p, Inv s p := by
  obtain ⟨s', p, e, hi⟩ := run_good (init_inv r) hc
  rw [he] at e; cases e
  exact ⟨p, hi⟩

/-! ### A shutdown ends -/

/-- What is not done by the user of the accepter or of a connection. -/
def isEnv : Op → Bool
  | .startup _ | .shutdown | .enable _ _ _ | .free | .control | .closeIo _ _ _ | .freeIo _ _ | .disableIo _ _ => false
  | _ => true

/-- The shutdown can be finished. -/
def Ends (s : Na) : Prop := ∃ ops s', ops.all isEnv = true ∧ run s ops = some s' ∧ s'.rep = true ∧ s'.base = .inShut

theorem Ends.cons {s s' : Na} {o : Op} (ho : isEnv o = true) (e : step s o = some s') (h : Ends s') : Ends s := by
  obtain ⟨ops, s'', h1, h2, h3⟩ := h
  exact ⟨o :: ops, s'', by simp [ho, h1], by simp [run, e, h2], h3⟩

theorem Ends.one {s s' : Na} {o : Op} (ho : isEnv o = true) (e : step s o = some s') (h : s'.rep = true) (hb : s'.base = .inShut) : Ends s :=
  ⟨[o], s', by simp [ho], by simp [run, e], h, hb⟩

theorem finish2_eq {s : Na} (h1 : s.shDone = true) (h2 : s.accGone = false) :
    finish2 s = some { s with st := .shutdown, shDone := false, rep := true, drops := s.drops + 1 } := by simp [finish2, h1, h2]

theorem ends_fin {s : Na} {p} (h : Inv s p) (hs : s.shDone = true) (ha : s.accGone = false) (hb : s.base = .inShut) (hf : 0 < s.finEn) : Ends s := by
  have hg := h.live (by simp [hf])
  refine Ends.one (o := .finEn) (s' := { s with finEn := s.finEn - 1, st := .shutdown, shDone := false, rep := true, drops := s.drops + 1 }) rfl ?_ rfl hb
  simp only [step, show ¬ s.finEn = 0 by omega, if_false]
  rw [if_neg (by simp [hg]), finish2_eq (s := { s with finEn := s.finEn - 1 }) hs ha]

theorem ends_sw {s : Na} {p} (h : Inv s p) (hs : s.shDone = true) (ha : s.accGone = false) (hb : s.base = .inShut) (hst : s.st = .inShutdown)
    (hf : 0 < s.deferSw) : Ends s := by
  have hg := h.live (by simp [hf])
  have hen := h.ensh hb hf
  refine Ends.one (o := .deferredSw true) (s' := { s with deferSw := s.deferSw - 1, st := .shutdown, shDone := false, rep := true, drops := s.drops + 1 }) rfl ?_ rfl hb
  simp only [step, show ¬ s.deferSw = 0 by omega, if_false]
  rw [if_neg (by simp [hg])]
  unfold deferSwitch finishShut
  simp [hst, hen, finish2, hs, ha]

theorem ends_in {s : Na} {p} (h : Inv s p) (hb : s.base = .inShut) (hst : s.st = .inShutdown) : Ends s := by
  have hs : s.shDone = true := by have := h.base; rw [hb, hst] at this; simpa [baseOk] using this.elim (fun a => a.2.1) (by simp)
  have ha := acc_of h (by simp [hb])
  have hp := Inv.pending h (by simp [hst])
  rcases hp with hd | hd | hd | hd
  · have hg := h.live (by simp [hd])
    cases hen : s.enDone with
    | none =>
      refine Ends.one (o := .deferred true) (s' := { s with defer := false, st := .shutdown, shDone := false, rep := true, drops := s.drops + 1 }) rfl ?_ rfl hb
      simp only [step, hd, if_true]
      unfold doDeferred
      rw [if_neg (by simp [hg])]
      simp [hen, deferSwitch, hst, finishShut, finish2, hs, ha]
    | some id =>
      have e : step s (.deferred true) = some { (s.say (.enCb id)) with defer := false, enDone := none, deferSw := s.deferSw + 1 } := by
        simp only [step, hd, if_true]
        unfold doDeferred
        rw [if_neg (by simp [hg])]
        simp [hen, ha, Na.say]
      obtain ⟨s', p', e', hi⟩ := deferred_step h true
      rw [e] at e'
      cases e'
      exact Ends.cons rfl e (ends_sw hi hs ha hb hst (Nat.succ_pos _))
  · exact ends_sw h hs ha hb hst hd
  · have hg := h.live (by simp [hd])
    cases hen : s.enDone with
    | none =>
      refine Ends.one (o := .timerDone true) (s' := { s with tm := .idle, st := .shutdown, shDone := false, rep := true, drops := s.drops + 1 }) rfl ?_ rfl hb
      simp only [step, hd, if_true]
      unfold timerDone
      rw [if_neg (by simp [hg])]
      simp [hen, hst, finishShut, finish2, hs, ha]
    | some id =>
      have e : step s (.timerDone true) = some { (s.say (.enCb id)) with tm := .idle, enDone := none, finEn := s.finEn + 1 } := by
        simp only [step, hd, if_true]
        unfold timerDone
        rw [if_neg (by simp [hg])]
        simp [hen, hst, finishShut, ha, Na.say]
      obtain ⟨s', p', e', hi⟩ := timerDone_step h true
      rw [e] at e'
      cases e'
      exact Ends.cons rfl e (ends_fin hi hs ha hb (Nat.succ_pos _))
  · exact ends_fin h hs ha hb hd

theorem ends_sc {s : Na} {p} (h : Inv s p) (hb : s.base = .inShut) (hst : s.st = .openShutdown) (hd : 0 < s.sc) : Ends s := by
  have hs : s.shDone = true := by have := h.base; rw [hb, hst] at this; simpa [baseOk] using this.elim (fun a => a.2.1) (by simp)
  have ha := acc_of h (by simp [hb])
  have hp : p = some .freed := by
    have := h.sc
    have hd : ¬ s.sc = 0 := by omega
    cases p with
    | none => exact absurd this hd
    | some ph => cases ph <;> first | rfl | exact absurd this hd
  subst hp
  have hg := h.live (by simp)
  cases hen : s.enDone with
  | none =>
    refine Ends.one (o := .shutClose) (s' := { s with sc := s.sc - 1, cur := none, st := .shutdown, shDone := false, rep := true, drops := s.drops + 1 }) rfl ?_ rfl hb
    simp only [step, show ¬ s.sc = 0 by omega, if_false]
    unfold shutClose
    rw [if_neg (by simp [hg])]
    simp [hen, hst, finishShut, finish2, hs, ha]
  | some id =>
    have e : step s .shutClose = some { (s.say (.enCb id)) with sc := s.sc - 1, cur := none, enDone := none, finEn := s.finEn + 1 } := by
      simp only [step, show ¬ s.sc = 0 by omega, if_false]
      unfold shutClose
      rw [if_neg (by simp [hg])]
      simp [hen, hst, finishShut, ha, Na.say]
    obtain ⟨s', p', e', hi⟩ := shutClose_step h
    rw [e] at e'
    cases e'
    exact Ends.cons rfl e (ends_fin hi hs ha hb (Nat.succ_pos _))

theorem ends_shut2 {s : Na} (h : Inv s (some .shut2)) (hb : s.base = .inShut) (hst : s.st = .openShutdown) : Ends s := by
  obtain ⟨i, hc, hi, e⟩ := h.cur
  have es : step s (.closed i) = some { (s.setc i Ph.freed.conn) with sc := s.sc + 1 } := by
    simp [step, e, Ph.conn]
  obtain ⟨s', p', e', hi⟩ := closed_step h i
  rw [es] at e'
  cases e'
  exact Ends.cons rfl es (ends_sc hi hb hst (Nat.succ_pos _))

theorem ends_shut1 {s : Na} (h : Inv s (some .shut1)) (hb : s.base = .inShut) (hst : s.st = .openShutdown) : Ends s := by
  obtain ⟨i, hc, hi, e⟩ := h.cur
  have hg := h.live (by simp)
  have es : step s (.openDone i true) = some (s.setc i Ph.shut2.conn) := by
    simp [step, e, Ph.conn, openDone1, hg, hst]
  exact Ends.cons rfl es (ends_shut2 (move h hc .shut2 (by simp) (by simp) (by rw [hst]; trivial) (by simp)) hb hst)

theorem ends_shut0 {s : Na} (h : Inv s (some .shut0)) (hb : s.base = .inShut) (hst : s.st = .openShutdown) : Ends s := by
  obtain ⟨i, hc, hi, e⟩ := h.cur
  have es : step s (.opened i true) = some (s.setc i Ph.shut1.conn) := by
    simp [step, e, Ph.conn]
  exact Ends.cons rfl es (ends_shut1 (move h hc .shut1 (by simp) (by simp) (by rw [hst]; trivial) (by simp)) hb hst)

/-- A shutdown that was begun can be finished and reported. -/
theorem shut_ends {s : Na} {p} (h : Inv s p) (hb : s.base = .inShut) :
    ∃ ops s', ops.all isEnv = true ∧ run s ops = some s' ∧ s'.rep = true ∧ s'.base = .inShut := by
  have hbo := h.base
  rw [hb] at hbo
  rcases hbo with ⟨hst | hst, hs, _⟩ | ⟨_, _, hr⟩
  · exact ends_in h hb hst
  · have hcomp := h.comp
    rw [hst] at hcomp
    cases p with
    | none => exact ends_fin h hs (acc_of h (by simp [hb])) hb (by have := h.osh hst rfl; omega)
    | some ph =>
      cases ph <;> simp only [compat] at hcomp
      case shut0 => exact ends_shut0 h hb hst
      case shut1 => exact ends_shut1 h hb hst
      case shut2 => exact ends_shut2 h hb hst
      case freed => exact ends_sc h hb hst (by have := h.sc; simp [given] at this; omega)
  · exact ⟨[], s, rfl, rfl, hr, hb⟩

/-! ### What was asked for and reported -/

/-- Not about the accepter. -/
def quiet (e : Ev) : Prop := match e with | .newConn _ | .closed _ => True | _ => False

/-- What the state of the accepter can become without its user. -/
def stNext (a b : NSt) : Prop :=
  b = a ∨ b = .opening ∨ b = .ready ∨ b = .waiting ∨ b = .dead ∨ (b = .disabled ∧ (a = .inDisable ∨ a = .openDisable)) ∨
  (b = .shutdown ∧ (a = .inShutdown ∨ a = .openShutdown))

/-- Nothing was asked for or reported, but the state may have changed. -/
structure Same (s s' : Na) : Prop where
  base : s'.base = s.base
  freed : s'.freed = s.freed
  enabled : s'.enabled = s.enabled
  retry : s'.retry = s.retry
  log : s'.log = s.log
  enDone : s'.enDone = s.enDone

/-- Nothing was asked for, and no more than an enable was reported. -/
structure Lg (s s' : Na) : Prop where
  base : s'.base = s.base
  freed : s'.freed = s.freed
  enabled : s'.enabled = s.enabled
  retry : s'.retry = s.retry
  st : stNext s.st s'.st
  log : (s'.enDone = s.enDone ∧ ∃ l, s'.log = s.log ++ l ∧ ∀ e ∈ l, quiet e) ∨
    (∃ id, s.enDone = some id ∧ s'.enDone = none ∧ s'.log = s.log ++ [.enCb id])

theorem Same.lg {s s' : Na} (h : Same s s') (hs : stNext s.st s'.st) : Lg s s' := by
  obtain ⟨h1, h2, h3, h4, h5, h6⟩ := h
  exact ⟨h1, h2, h3, h4, hs, .inl ⟨h6, [], by simp [h5]⟩⟩

theorem Same.trans {a b c : Na} (h : Same a b) (h' : Same b c) : Same a c := by
  obtain ⟨h1, h2, h3, h4, h5, h6⟩ := h
  obtain ⟨g1, g2, g3, g4, g5, g6⟩ := h'
  constructor <;> simp_all

theorem deref_same {s s' : Na} (e : deref s = some s') : Same s s' ∧ s'.st = s.st := by
  unfold deref at e
  split at e
  · cases e
  · split at e <;> (cases e; exact ⟨by constructor <;> rfl, rfl⟩)

theorem deferOp_same (s : Na) : Same s (deferOp s) ∧ (deferOp s).st = s.st := by
  unfold deferOp
  split <;> exact ⟨by constructor <;> rfl, rfl⟩

theorem startRetry_same {s s' : Na} (e : startRetry s = some s') : Same s s' ∧ s'.st = .waiting := by
  unfold startRetry at e
  split at e
  · cases e
  · cases e; exact ⟨by constructor <;> rfl, rfl⟩

theorem failed_same {s s' : Na} (e : failed s = some s') : Same s s' ∧ (s'.st = .waiting ∨ (s'.st = .dead ∧ s.retry = false)) := by
  unfold failed at e
  split at e
  · exact ⟨(startRetry_same e).1, .inl (startRetry_same e).2⟩
  · rename_i hr
    cases e
    have := deferOp_same { s with st := .dead, conErr := true }
    obtain ⟨⟨h1, h2, h3, h4, h5, h6⟩, h7⟩ := this
    exact ⟨⟨h1, h2, h3, h4, h5, h6⟩, .inr ⟨h7, by simpa using hr⟩⟩

theorem start_same {s s' : Na} {ok : Bool} (e : start s ok = some s') :
    Same s s' ∧ (s'.st = .ready ∨ s'.st = .opening ∨ s'.st = .waiting ∨ (s'.st = .dead ∧ s.retry = false)) := by
  unfold start at e
  split at e
  · cases e; exact ⟨by constructor <;> rfl, .inl rfl⟩
  · split at e
    · cases e; exact ⟨by constructor <;> rfl, .inr (.inl rfl)⟩
    · have := failed_same e
      exact ⟨this.1, .inr (.inr this.2)⟩

theorem sd_same {s s' : Na} {ok : Bool} (e : (start s ok).bind deref = some s') : Lg s s' := by
  cases h : start s ok with
  | none => rw [h] at e; cases e
  | some t =>
    rw [h] at e
    obtain ⟨a, b⟩ := start_same h
    obtain ⟨c, d⟩ := deref_same (show deref t = some s' from e)
    refine (a.trans c).lg ?_
    rw [d]
    rcases b with b | b | b | b <;> simp [stNext, b]

theorem cderef_lg {s s' : Na} {i : Nat} (e : cderef s i = some s') : Same s s' ∧ s'.st = s.st := by
  unfold cderef at e
  dsimp only at e
  split at e
  · cases e
  · split at e <;> (cases e; exact ⟨by constructor <;> rfl, rfl⟩)

theorem Lg.same {a b c : Na} (h : Lg a b) (h' : Same b c) (hs : c.st = b.st) : Lg a c := by
  obtain ⟨h1, h2, h3, h4, h5, h6⟩ := h
  obtain ⟨g1, g2, g3, g4, g5, g6⟩ := h'
  refine ⟨by rw [g1, h1], by rw [g2, h2], by rw [g3, h3], by rw [g4, h4], by rw [hs]; exact h5, ?_⟩
  rw [g5, g6]
  exact h6

theorem finishClose_lg {s s' : Na} {i : Nat} {ok : Bool} (e : finishClose s i ok = some s') : Lg s s' := by
  unfold finishClose at e
  dsimp only at e
  split at e
  · cases e; exact Same.lg (by constructor <;> rfl) (.inl rfl)
  · split at e
    · cases e
    · rw [Option.bind_eq_some_iff] at e
      obtain ⟨t, e1, e2⟩ := e
      have hd := deref_same e2
      have : Lg s t := by
        split at e1
        · split at e1
          · obtain ⟨⟨h1, h2, h3, h4, h5, h6⟩, h7⟩ := startRetry_same e1
            exact Same.lg ⟨h1, h2, h3, h4, h5, h6⟩ (by simp [stNext, h7])
          · obtain ⟨⟨h1, h2, h3, h4, h5, h6⟩, h7⟩ := start_same e1
            exact Same.lg ⟨h1, h2, h3, h4, h5, h6⟩ (by rcases h7 with b | b | b | b <;> simp [stNext, b])
        · cases e1; exact Same.lg (by constructor <;> rfl) (.inl rfl)
      exact this.same hd.1 hd.2

theorem iClose_lg {s s' : Na} {i : Nat} {id : Option Nat} {ok : Bool} (e : iClose s i id ok = some s') : Lg s s' := by
  unfold iClose at e
  dsimp only at e
  split at e
  · cases e; exact Same.lg (by constructor <;> rfl) (.inl rfl)
  · obtain ⟨h1, h2, h3, h4, h5, h6⟩ := finishClose_lg e
    exact ⟨h1, h2, h3, h4, h5, h6⟩

theorem connFree_lg {s s' : Na} {i : Nat} {ok : Bool} (e : connFree s i ok = some s') : Lg s s' := by
  unfold connFree at e
  split at e
  · cases e
  · rw [Option.bind_eq_some_iff] at e
    obtain ⟨t, e1, e2⟩ := e
    have hd := cderef_lg e2
    have : Lg s t := by
      split at e1
      · exact iClose_lg e1
      · cases e1; exact Same.lg (by constructor <;> rfl) (.inl rfl)
    exact this.same hd.1 hd.2

theorem finish2_lg {s s' : Na} (hs : s.st = .inShutdown ∨ s.st = .openShutdown) (e : finish2 s = some s') : Lg s s' := by
  unfold finish2 at e
  split at e
  · split at e
    · cases e
    · cases e; exact Same.lg (by constructor <;> rfl) (by simp [stNext, hs])
  · obtain ⟨⟨h1, h2, h3, h4, h5, h6⟩, h7⟩ := deref_same e
    exact Same.lg ⟨h1, h2, h3, h4, h5, h6⟩ (by simp [stNext, h7, hs])

theorem finishShut_lg {s s' : Na} (hs : s.st = .inShutdown ∨ s.st = .openShutdown) (e : finishShut s = some s') : Lg s s' := by
  unfold finishShut at e
  split at e
  · rename_i id hid
    split at e
    · cases e
    · cases e
      exact ⟨rfl, rfl, rfl, rfl, .inl rfl, .inr ⟨id, hid, rfl, rfl⟩⟩
  · exact finish2_lg hs e

theorem callEnabled_lg {s s' : Na} (hs : s.st = .inDisable ∨ s.st = .openDisable) (e : callEnabled { s with st := .disabled } = some s') : Lg s s' := by
  unfold callEnabled at e
  split at e
  · rename_i id hid
    split at e
    · cases e
    · cases e
      exact ⟨rfl, rfl, rfl, rfl, by simp [stNext, hs, Na.say], .inr ⟨id, hid, rfl, rfl⟩⟩
  · obtain ⟨⟨h1, h2, h3, h4, h5, h6⟩, h7⟩ := deref_same e
    exact Same.lg ⟨h1, h2, h3, h4, h5, h6⟩ (by simp [stNext, h7, hs])

theorem deferSwitch_lg {s s' : Na} {ok : Bool} (e : deferSwitch s ok = some s') : Lg s s' := by
  unfold deferSwitch at e
  split at e
  · rename_i h; exact finishShut_lg (.inl h) e
  · rename_i h
    obtain ⟨⟨h1, h2, h3, h4, h5, h6⟩, h7⟩ := deref_same e
    exact Same.lg ⟨h1, h2, h3, h4, h5, h6⟩ (by simp [stNext, h7, h])
  · exact sd_same e
  · split at e
    · split at e
      · cases e
      · cases e; exact Same.lg (by constructor <;> rfl) (.inl rfl)
    · have := deref_same e; exact this.1.lg (.inl this.2)
  · have := deref_same e; exact this.1.lg (.inl this.2)

/-- Everything but what the user does with the accepter, and the report of a shutdown. -/
theorem step_lg {s s' : Na} {p} (h : Inv s p) (o : Op) (ho : (∀ b, o ≠ .startup b) ∧ o ≠ .shutdown ∧ (∀ a b c, o ≠ .enable a b c) ∧ o ≠ .free ∧ o ≠ .report ∧
    (∀ i ok, o ≠ .disableIo i ok)) (e : step s o = some s') : Lg s s' := by
  have refl : Lg s s := Same.lg (by constructor <;> rfl) (.inl rfl)
  cases o with
  | startup ok => exact absurd rfl (ho.1 ok)
  | shutdown => exact absurd rfl ho.2.1
  | enable a b c => exact absurd rfl (ho.2.2.1 a b c)
  | free => exact absurd rfl ho.2.2.2.1
  | report => exact absurd rfl ho.2.2.2.2.1
  | disableIo i ok => exact absurd rfl (ho.2.2.2.2.2 i ok)
  | control =>
    simp only [step, control] at e
    split at e
    · cases e; exact refl
    · split at e
      · cases e
      · split at e
        · split at e
          · cases e
          · cases e; exact refl
        · cases e; exact refl
  | closeIo i id ok =>
    simp only [step] at e
    split at e
    · cases e; exact refl
    · split at e
      · cases e
      · exact iClose_lg e
  | freeIo i ok =>
    simp only [step] at e
    split at e
    · cases e; exact refl
    · obtain ⟨h1, h2, h3, h4, h5, h6⟩ := connFree_lg e
      exact ⟨h1, h2, h3, h4, h5, h6⟩
  | opened i err =>
    simp only [step] at e
    split at e
    · cases e; exact refl
    · split at e <;> (cases e; exact Same.lg (by constructor <;> rfl) (.inl rfl))
  | openDone i ok =>
    simp only [step] at e
    split at e
    · cases e; exact refl
    · split at e
      · cases e
      · unfold openDone1 at e
        split at e
        · cases e
        · split at e <;> (cases e; exact Same.lg (by constructor <;> rfl) (.inl rfl))
    · split at e
      · cases e
      · unfold openDone2 at e
        split at e
        · cases e; exact Same.lg (by constructor <;> rfl) (.inl rfl)
        · split at e
          · cases e
          · split at e <;> (cases e; exact Same.lg (by constructor <;> rfl) (.inl rfl))
    · split at e
      · cases e
      · unfold openDone3 at e
        split at e
        · cases e
        · split at e
          · rename_i hst
            split at e
            · rw [Option.bind_eq_some_iff] at e
              obtain ⟨t, e1, e2⟩ := e
              obtain ⟨⟨h1, h2, h3, h4, h5, h6⟩, h7⟩ := deref_same e2
              obtain ⟨⟨g1, g2, g3, g4, g5, g6⟩, g7⟩ := failed_same e1
              refine Same.lg ⟨h1.trans g1, h2.trans g2, h3.trans g3, h4.trans g4, h5.trans g5, h6.trans g6⟩ ?_
              have h7 : s'.st = t.st := h7
              rw [h7]
              rcases g7 with g | g <;> simp [stNext, g]
            · cases e; exact Same.lg (by constructor <;> rfl) (by simp [stNext])
          · rename_i hst
            split at e
            · obtain ⟨⟨h1, h2, h3, h4, h5, h6⟩, h7⟩ := deref_same e
              exact Same.lg ⟨h1, h2, h3, h4, h5, h6⟩ (by simp [stNext, h7, hst])
            · cases e
          · cases e
    · split at e
      · cases e
      · unfold openDone4 at e
        dsimp only at e
        split at e
        · cases e
          exact ⟨rfl, rfl, rfl, rfl, .inl rfl, .inl ⟨rfl, [.newConn i], rfl, by simp [quiet]⟩⟩
        · obtain ⟨h1, h2, h3, h4, h5, h6⟩ := connFree_lg e
          exact ⟨h1, h2, h3, h4, h5, h6⟩
  | closed i =>
    simp only [step] at e
    split at e
    · cases e; exact refl
    · split at e
      · cases e; exact Same.lg (by constructor <;> rfl) (.inl rfl)
      · cases e
        split
        · rename_i id _
          exact ⟨rfl, rfl, rfl, rfl, .inl rfl, .inl ⟨rfl, [.closed id], rfl, by simp [quiet]⟩⟩
        · exact Same.lg (by constructor <;> rfl) (.inl rfl)
  | closeEnd i ok =>
    simp only [step] at e
    split at e
    · cases e; exact refl
    · split at e
      · cases e
      · rw [Option.bind_eq_some_iff] at e
        obtain ⟨t, e1, e2⟩ := e
        obtain ⟨h1, h2, h3, h4, h5, h6⟩ := finishClose_lg e1
        have hd := cderef_lg e2
        exact Lg.same (b := t) ⟨h1, h2, h3, h4, h5, h6⟩ hd.1 hd.2
  | deferred ok =>
    simp only [step] at e
    split at e
    · unfold doDeferred at e
      split at e
      · cases e
      · dsimp only at e
        split at e
        · rename_i id hid
          split at e
          · cases e
          · cases e
            exact ⟨rfl, rfl, rfl, rfl, .inl rfl, .inr ⟨id, hid, rfl, rfl⟩⟩
        · obtain ⟨h1, h2, h3, h4, h5, h6⟩ := deferSwitch_lg e
          exact ⟨h1, h2, h3, h4, h5, h6⟩
    · cases e; exact refl
  | deferredSw ok =>
    simp only [step] at e
    split at e
    · cases e; exact refl
    · split at e
      · cases e
      · obtain ⟨h1, h2, h3, h4, h5, h6⟩ := deferSwitch_lg e
        exact ⟨h1, h2, h3, h4, h5, h6⟩
  | finEn =>
    simp only [step] at e
    split at e
    · cases e; exact refl
    · rename_i hf
      split at e
      · cases e
      · have := h.fin
        simp only [hf, false_or] at this
        obtain ⟨h1, h2, h3, h4, h5, h6⟩ := finish2_lg (by rcases this.2.2 with a | a <;> simp [a.1]) e
        exact ⟨h1, h2, h3, h4, h5, h6⟩
  | drop =>
    simp only [step] at e
    split at e
    · cases e; exact refl
    · split at e
      · cases e
      · obtain ⟨⟨h1, h2, h3, h4, h5, h6⟩, h7⟩ := deref_same e
        exact Same.lg ⟨h1, h2, h3, h4, h5, h6⟩ (.inl h7)
  | timer =>
    simp only [step] at e
    split at e <;> (cases e; exact Same.lg (by constructor <;> rfl) (.inl rfl))
  | timeout ok =>
    simp only [step] at e
    split at e
    · cases e; exact refl
    · unfold timeout at e
      split at e
      · cases e
      · have aux : ∀ {t}, Lg { s with timers := s.timers - 1 } t → Lg s t := fun ⟨h1, h2, h3, h4, h5, h6⟩ => ⟨h1, h2, h3, h4, h5, h6⟩
        split at e
        · rename_i hs; exact aux (finishShut_lg (.inl hs) e)
        · exact aux (sd_same e)
        · exact aux (sd_same e)
        · rename_i hs
          obtain ⟨⟨h1, h2, h3, h4, h5, h6⟩, h7⟩ := deref_same e
          have hs : s.st = .inDisable := hs
          exact Same.lg ⟨h1, h2, h3, h4, h5, h6⟩ (by simp [stNext, h7, hs])
        · cases e
  | timerDone ok =>
    simp only [step] at e
    split at e
    · unfold timerDone at e
      split at e
      · cases e
      · have aux : ∀ {t}, Lg { s with tm := .idle } t → Lg s t := fun ⟨h1, h2, h3, h4, h5, h6⟩ => ⟨h1, h2, h3, h4, h5, h6⟩
        split at e
        · rename_i hs; exact aux (finishShut_lg (.inl hs) e)
        · rename_i hs; exact aux (callEnabled_lg (s := { s with tm := .idle }) (.inl hs) e)
        · exact aux (sd_same e)
        · cases e
    · cases e; exact refl
  | shutClose =>
    simp only [step] at e
    split at e
    · cases e; exact refl
    · unfold shutClose at e
      split at e
      · cases e
      · dsimp only at e
        have aux : ∀ {t}, Lg { s with sc := s.sc - 1, cur := none } t → Lg s t := fun ⟨h1, h2, h3, h4, h5, h6⟩ => ⟨h1, h2, h3, h4, h5, h6⟩
        split at e
        · rename_i hs; exact aux (callEnabled_lg (s := { s with sc := s.sc - 1, cur := none }) (.inr hs) e)
        · rename_i hs; exact aux (finishShut_lg (.inr hs) e)
        · cases e
  | release =>
    simp only [step] at e
    split at e
    · cases e; exact refl
    · split at e
      · cases e
      · obtain ⟨⟨h1, h2, h3, h4, h5, h6⟩, h7⟩ := deref_same e
        exact Same.lg ⟨h1, h2, h3, h4, h5, h6⟩ (.inl h7)

/-! ### Counting -/

/-- What was asked for and is not yet reported. -/
structure Book (s : Na) : Prop where
  en : ∀ id, s.log.count (.enReq id) = s.log.count (.enCb id) + (if s.enDone = some id then 1 else 0)
  sh : s.freed = false → s.log.count .shutReq = s.log.count .shutCb + (if s.base = .inShut then 1 else 0)

theorem quiet_count {l : List Ev} (h : ∀ e ∈ l, quiet e) {e : Ev} (he : ¬ quiet e) : l.count e = 0 :=
  List.count_eq_zero.2 fun hm => he (h e hm)

theorem lg_book {s s' : Na} (h : Lg s s') (hb : Book s) : Book s' := by
  obtain ⟨h1, h2, h3, h4, h5, h6⟩ := h
  obtain ⟨b1, b2⟩ := hb
  rcases h6 with ⟨e1, l, e2, e3⟩ | ⟨id, e1, e2, e3⟩
  · constructor
    · intro id
      rw [e1, e2, List.count_append, List.count_append, quiet_count e3 (by simp [quiet]), quiet_count e3 (by simp [quiet])]
      exact b1 id
    · intro hf
      rw [h1, e2, List.count_append, List.count_append, quiet_count e3 (by simp [quiet]), quiet_count e3 (by simp [quiet])]
      exact b2 (by rw [← h2]; exact hf)
  · constructor
    · intro id'
      have := b1 id'
      rw [e2, e3, List.count_append, List.count_append]
      rw [e1] at this
      by_cases hid : id = id'
      · subst hid; simp at this ⊢; omega
      · simp [hid, Ne.symm hid] at this ⊢
        omega
    · intro hf
      have := b2 (by rw [← h2]; exact hf)
      rw [h1, e3, List.count_append, List.count_append]
      simpa using this

theorem closeCur_same {s : Na} {r : Na × Bool} (e : closeCur s = some r) : Same s r.1 := by
  unfold closeCur at e
  split at e
  · cases e
  · dsimp only at e
    split at e
    · cases e
    · split at e <;> (cases e; constructor <;> rfl)

theorem shutdown_same {s : Na} {r : Na × Bool} (e : shutdown s = some r) : Same s r.1 := by
  have dop : ∀ x : NSt, Same s { (deferOp { s with st := x }) with shDone := true } := by
    intro x
    obtain ⟨⟨h1, h2, h3, h4, h5, h6⟩, _⟩ := deferOp_same { s with st := x }
    exact ⟨h1, h2, h3, h4, h5, h6⟩
  unfold shutdown at e
  dsimp only at e
  split at e
  · cases e
  split at e
  · cases e; constructor <;> rfl
  · cases e; constructor <;> rfl
  · cases e; constructor <;> rfl
  · rw [Option.bind_eq_some_iff] at e
    obtain ⟨t, e1, e2⟩ := e
    obtain ⟨h1, h2, h3, h4, h5, h6⟩ := closeCur_same e1
    split at e2
    · cases e2; exact ⟨h1, h2, h3, h4, h5, h6⟩
    · cases e2
      obtain ⟨⟨g1, g2, g3, g4, g5, g6⟩, _⟩ := deferOp_same { t.1 with st := .inShutdown }
      exact ⟨g1.trans h1, g2.trans h2, g3.trans h3, g4.trans h4, g5.trans h5, g6.trans h6⟩
  · split at e
    · cases e; constructor <;> rfl
    · cases e; exact dop _
    · cases e
  · cases e; constructor <;> rfl
  · cases e; constructor <;> rfl
  · cases e; exact dop _
  · cases e; exact dop _
  · cases e; exact dop _
  · cases e; exact dop _

theorem same_book {s s' : Na} (h : Same s s') (hb : Book s) : Book s' := by
  obtain ⟨h1, h2, h3, h4, h5, h6⟩ := h
  exact ⟨by rw [h5, h6]; exact hb.en, by rw [h1, h2, h5]; exact hb.sh⟩

/-- Nothing was reported; the upper half went between closed and open, or the user freed the accepter. -/
theorem move_book {s s' : Na} (h1 : s'.log = s.log) (h2 : s'.enDone = s.enDone)
    (h3 : s'.freed = true ∨ (s'.freed = s.freed ∧ s.base ≠ .inShut ∧ s'.base ≠ .inShut)) (hb : Book s) : Book s' := by
  refine ⟨by rw [h1, h2]; exact hb.en, fun hf => ?_⟩
  rcases h3 with h3 | ⟨h3, h4, h5⟩
  · simp [h3] at hf
  · have := hb.sh (by rw [← h3]; exact hf)
    rw [h1]
    simpa [h4, h5] using this

theorem enEnd_book {s s' : Na} {en d : Bool} {done : Option Nat} (hn : s.enDone = none) (hb : Book s) (e : enEnd s en done d = some s') : Book s' := by
  obtain ⟨b1, b2⟩ := hb
  unfold enEnd at e
  dsimp only at e
  have key : ∀ t : Na, t.enDone = done → t.base = s.base → t.freed = s.freed →
      (t.log = match done with | some id => s.log ++ [.enReq id] | none => s.log) → Book t := by
    intro t h1 h2 h3 h4
    constructor
    · intro id
      have := b1 id
      rw [hn] at this
      rw [h1, h4]
      cases done with
      | none => simpa using this
      | some id' =>
        simp only [List.count_append]
        by_cases hid : id' = id
        · subst hid; simp at this ⊢; omega
        · simp [hid, Ne.symm hid] at this ⊢
          omega
    · intro hf
      have := b2 (by rw [← h3]; exact hf)
      rw [h2, h4]
      cases done with
      | none => simpa using this
      | some id' => simpa using this
  cases done with
  | none =>
    split at e
    · cases e
      refine same_book (deferOp_same _).1 (key _ rfl rfl rfl rfl)
    · cases e; exact key _ rfl rfl rfl rfl
  | some id =>
    split at e
    · cases e
      refine same_book (deferOp_same _).1 (key _ rfl rfl rfl rfl)
    · cases e; exact key _ rfl rfl rfl rfl

theorem enable_book {s s' : Na} {en ok : Bool} {done : Option Nat} (hb : Book s) (e : enable s en done ok = some s') : Book s' := by
  unfold enable at e
  split at e
  · cases e
  split at e
  · cases e; exact hb
  rename_i hn
  have hn : s.enDone = none := by simpa using hn
  have st : ∀ (x : NSt) (tm : Tm) d, enEnd { s with st := x, tm := tm } en done d = some s' → Book s' := fun x tm d e =>
    enEnd_book (s := { s with st := x, tm := tm }) hn (same_book (s := s) (by constructor <;> rfl) hb) e
  have cc : (closeCur s).bind (fun r => if r.2 = true then enEnd { r.1 with st := .openDisable } en done false else enEnd { r.1 with st := .inDisable } en done true) = some s' →
      Book s' := by
    intro e
    rw [Option.bind_eq_some_iff] at e
    obtain ⟨t, e1, e2⟩ := e
    obtain ⟨h1, h2, h3, h4, h5, h6⟩ := closeCur_same e1
    split at e2
    · exact enEnd_book (s := { t.1 with st := .openDisable }) (h6.trans hn) (same_book (s := s) ⟨h1, h2, h3, h4, h5, h6⟩ hb) e2
    · exact enEnd_book (s := { t.1 with st := .inDisable }) (h6.trans hn) (same_book (s := s) ⟨h1, h2, h3, h4, h5, h6⟩ hb) e2
  split at e
  · exact enEnd_book hn hb e
  · exact enEnd_book hn hb e
  · exact enEnd_book hn hb e
  · exact enEnd_book hn hb e
  · split at e
    · rw [Option.bind_eq_some_iff] at e
      obtain ⟨t, e1, e2⟩ := e
      have hs := (start_same e1).1
      split at e2
      · cases e2
        obtain ⟨h1, h2, h3, h4, h5, h6⟩ := hs
        exact same_book (s := s) ⟨h1, h2, h3, h4, h5, h6⟩ hb
      · exact enEnd_book (hs.enDone.trans hn) (same_book hs hb) e2
    · exact enEnd_book hn hb e
  · split at e
    · exact enEnd_book hn hb e
    · exact cc e
  · exact st _ _ _ e
  · split at e
    · exact enEnd_book hn hb e
    · split at e
      · exact st _ _ _ e
      · exact st .inDisable s.tm _ e
      · cases e
  · split at e
    · exact st .opening s.tm _ e
    · exact enEnd_book hn hb e
  · split at e
    · exact st .inDisableRestart s.tm _ e
    · exact enEnd_book hn hb e
  · split at e
    · exact enEnd_book hn hb e
    · exact st .inDisable s.tm _ e

theorem step_book {s s' : Na} {p} (h : Inv s p) (hb : Book s) (o : Op) (hca : careful s o) (e : step s o = some s') : Book s' := by
  by_cases ho : (∀ b, o ≠ .startup b) ∧ o ≠ .shutdown ∧ (∀ a b c, o ≠ .enable a b c) ∧ o ≠ .free ∧ o ≠ .report ∧ (∀ i ok, o ≠ .disableIo i ok)
  · exact lg_book (step_lg h o ho e) hb
  cases o with
  | startup ok =>
    simp only [step] at e
    split at e
    · cases e; exact hb
    · unfold startup at e
      split at e
      · cases e
      · split at e
        · cases e; exact hb
        · rename_i hbc
          have hbc : s.base = .closed := by simpa using hbc
          split at e
          · cases e; exact hb
          · split at e
            · cases e; exact move_book (s := s) rfl rfl (.inr ⟨rfl, by simp [hbc], by simp⟩) hb
            · rw [Option.map_eq_some_iff] at e
              obtain ⟨t, e1, e2⟩ := e
              obtain ⟨⟨h1, h2, h3, h4, h5, h6⟩, _⟩ := start_same e1
              have h1 : t.base = s.base := h1
              split at e2
              · cases e2; exact move_book (s := s) h5 h6 (.inr ⟨h2, by simp [hbc], by simp [h1, hbc]⟩) hb
              · cases e2; exact move_book (s := s) h5 h6 (.inr ⟨h2, by simp [hbc], by simp⟩) hb
  | shutdown =>
    simp only [step] at e
    split at e
    · cases e; exact hb
    · rename_i hf
      simp only [not_or] at hf
      rw [Option.map_eq_some_iff] at e
      obtain ⟨t, e1, e2⟩ := e
      have hs := shutdown_same e1
      have hb' := same_book hs hb
      split at e2
      · cases e2
        refine ⟨fun id => ?_, fun hfr => ?_⟩
        · simp [Na.say]; exact hb'.en id
        · have := hb'.sh hfr
          rw [hs.base] at this
          have hbo : s.base = .opened := by simpa using hf.2
          simp [hbo] at this
          simp [Na.say, this]
      · cases e2; exact hb'
  | enable en d ok =>
    simp only [step] at e
    split at e
    · cases e; exact hb
    · exact enable_book hb e
  | free =>
    simp only [step] at e
    split at e
    · cases e; exact hb
    · unfold accFree at e
      dsimp only at e
      split at e
      · rw [Option.map_eq_some_iff] at e
        obtain ⟨t, e1, e2⟩ := e
        obtain ⟨h1, h2, h3, h4, h5, h6⟩ := shutdown_same e1
        cases e2
        exact move_book (s := s) h5 h6 (.inl h2) hb
      · cases e; exact move_book (s := s) rfl rfl (.inl rfl) hb
  | report =>
    simp only [step] at e
    split at e
    · cases e; exact hb
    · rename_i hr
      have hbi : s.base = .inShut := by
        have := h.base; revert this; cases s.base <;> simp_all [baseOk]
      cases e
      split
      · rename_i hf
        exact move_book (s := s) rfl rfl (.inl hf) hb
      · rename_i hf
        refine ⟨fun id => ?_, fun hfr => ?_⟩
        · simp [Na.say]; exact hb.en id
        · have := hb.sh (by simpa using hf)
          simp [hbi] at this
          simp [Na.say, this]
  | disableIo i ok =>
    have hca : (s.conns i).user = false := hca
    simp only [step, hca, Bool.not_false, if_true] at e
    cases e; exact hb
  | _ => exact absurd ⟨by simp, by simp, by simp, by simp, by simp, by simp⟩ ho

theorem run_book {s : Na} {p} (h : Inv s p) (hb : Book s) : ∀ {ops s'}, Careful s ops → run s ops = some s' → Book s' := by
  intro ops
  induction ops generalizing s p with
  | nil => intro s' _ e; cases e; exact hb
  | cons o os ih =>
    rintro s' ⟨h1, h2⟩ e
    obtain ⟨t, p', e1, hi⟩ := step_good h o h1
    simp only [run, e1, Option.bind_some] at e
    exact ih hi (step_book h hb o h1 e1) (h2 t e1) e

/-! ### An accepter that is enabled keeps trying -/

/-- With retries: not stopped when it is enabled. -/
def Keeps (s : Na) : Prop := s.retry = true → s.base = .opened →
  s.st ≠ .shutdown ∧ (s.st = .disabled ∨ s.st = .inDisable ∨ s.st = .openDisable → s.enabled = false)

/-- Besides being careful, the user does not enable the accepter while it has a connection. -/
def noReady (s : Na) (o : Op) : Prop := ∀ d ok, o = .enable true d ok → s.st ≠ .ready

theorem lg_keeps {s s' : Na} {p} (h : Inv s p) (hl : Lg s s') (hk : Keeps s) : Keeps s' := by
  obtain ⟨h1, h2, h3, h4, h5, _⟩ := hl
  intro hr hb
  rw [h4] at hr
  rw [h1] at hb
  obtain ⟨k1, k2⟩ := hk hr hb
  rw [h3]
  have hsd : s.st ≠ .inShutdown ∧ s.st ≠ .openShutdown := by have := h.base; rw [hb] at this; exact ⟨this.1, this.2.1⟩
  rcases h5 with e | e | e | e | e | ⟨e, a⟩ | ⟨e, a⟩
  · rw [e]; exact ⟨k1, k2⟩
  · simp [e]
  · simp [e]
  · simp [e]
  · simp [e]
  · simp only [e]; refine ⟨by simp, fun _ => k2 ?_⟩
    rcases a with a | a <;> simp [a]
  · rcases a with a | a <;> simp_all

theorem enEnd_fields {s s' : Na} {en d : Bool} {done : Option Nat} (e : enEnd s en done d = some s') :
    s'.st = s.st ∧ s'.enabled = en ∧ s'.retry = s.retry ∧ s'.base = s.base := by
  unfold enEnd at e
  dsimp only at e
  cases done with
  | none =>
    split at e
    · cases e
      have := deferOp_same { s with enabled := en, enDone := none }
      exact ⟨this.2, this.1.enabled, this.1.retry, this.1.base⟩
    · cases e; exact ⟨rfl, rfl, rfl, rfl⟩
  | some id =>
    split at e
    · cases e
      have := deferOp_same { (s.say (.enReq id)) with enabled := en, enDone := some id }
      exact ⟨this.2, this.1.enabled, this.1.retry, this.1.base⟩
    · cases e; exact ⟨rfl, rfl, rfl, rfl⟩

theorem enable_keeps {s s' : Na} {p} (h : Inv s p) (hk : Keeps s) {en ok : Bool} {done : Option Nat} (hb : s.base = .opened)
    (hca : careful s (.enable en done ok)) (hn : noReady s (.enable en done ok)) (e : enable s en done ok = some s') : Keeps s' := by
  unfold enable at e
  split at e
  · cases e
  split at e
  · cases e; exact hk
  rename_i hnn
  have hnn : s.enDone = none := by simpa using hnn
  obtain ⟨_, _, _, c4⟩ := hca hnn
  have hr' : s'.retry = true → s.retry = true → s.st ≠ .shutdown := fun _ hr => (hk hr hb).1
  -- a state is kept that is not one of those, or the accepter is disabled
  have key : ∀ (t : Na) (d : Bool), enEnd t en done d = some s' → t.retry = s.retry → (s.retry = true → t.st ≠ .shutdown) →
      (en = true → t.st ≠ .disabled ∧ t.st ≠ .inDisable ∧ t.st ≠ .openDisable) → Keeps s' := by
    intro t d e h1 h2 h3 hr hbo
    obtain ⟨g1, g2, g3, g4⟩ := enEnd_fields e
    rw [g3, h1] at hr
    rw [g1, g2]
    refine ⟨h2 hr, fun hx => ?_⟩
    cases en
    · rfl
    · have := h3 rfl; rcases hx with a | a | a <;> simp_all
  have cc : en = false → (closeCur s).bind (fun r => if r.2 = true then enEnd { r.1 with st := .openDisable } en done false else enEnd { r.1 with st := .inDisable } en done true) = some s' →
      Keeps s' := by
    intro he e
    rw [Option.bind_eq_some_iff] at e
    obtain ⟨t, e1, e2⟩ := e
    have hs := closeCur_same e1
    split at e2
    · exact key _ _ e2 hs.retry (by simp) (by simp [he])
    · exact key _ _ e2 hs.retry (by simp) (by simp [he])
  split at e <;> rename_i hst
  · exact key s _ e rfl (fun hr => absurd hst (hk hr hb).1) (by simp [hst])
  · exact key s _ e rfl (by simp [hst]) (by simp [hst])
  · exact key s _ e rfl (by simp [hst]) (by simp [hst])
  · exact key s _ e rfl (by simp [hst]) (by simp [hst])
  · split at e
    · rw [Option.bind_eq_some_iff] at e
      obtain ⟨t, e1, e2⟩ := e
      obtain ⟨hs, hx⟩ := start_same e1
      split at e2
      · rename_i hd
        cases e2
        intro hr _
        have hr : t.retry = true := hr
        rw [hs.retry] at hr
        rcases hx with a | a | a | a <;> simp_all
      · rename_i hd
        exact key t _ e2 hs.retry (by rcases hx with a | a | a | a <;> simp_all) (by rcases hx with a | a | a | a <;> simp_all)
    · rename_i hen
      exact key s _ e rfl (by simp [hst]) (by simp [hen])
  · split at e
    · exact key s _ e rfl (by simp [hst]) (by simp [hst])
    · rename_i hen
      exact cc (by simpa using hen) e
  · refine key _ _ e rfl (by simp) (fun he => ?_)
    subst he
    exact absurd hst (hn done ok rfl)
  · split at e
    · exact key s _ e rfl (by simp [hst]) (by simp [hst])
    · rename_i hen
      split at e
      · exact key _ _ e rfl (by simp) (by simp [hen])
      · exact key _ _ e rfl (by simp) (by simp [hen])
      · cases e
  · have hen := c4 hst
    subst hen
    exact key _ _ e rfl (by simp [hst]) (by simp)
  · split at e
    · exact key _ _ e rfl (by simp) (by simp)
    · rename_i hen
      exact key _ _ e rfl (by simp [hst]) (by simp [hen])
  · split at e
    · exact key _ _ e rfl (by simp [hst]) (by simp [hst])
    · rename_i hen
      exact key _ _ e rfl (by simp) (by simp [hen])

theorem step_keeps {s s' : Na} {p} (h : Inv s p) (hk : Keeps s) (o : Op) (hca : careful s o) (hn : noReady s o) (e : step s o = some s') : Keeps s' := by
  by_cases ho : (∀ b, o ≠ .startup b) ∧ o ≠ .shutdown ∧ (∀ a b c, o ≠ .enable a b c) ∧ o ≠ .free ∧ o ≠ .report ∧ (∀ i ok, o ≠ .disableIo i ok)
  · exact lg_keeps h (step_lg h o ho e) hk
  cases o with
  | startup ok =>
    simp only [step] at e
    split at e
    · cases e; exact hk
    · unfold startup at e
      split at e
      · cases e
      · split at e
        · cases e; exact hk
        · rename_i hbc
          have hbc : s.base = .closed := by simpa using hbc
          split at e
          · cases e; exact hk
          · split at e
            · rename_i hen
              cases e
              intro _ _
              exact ⟨by simp, fun _ => by simpa using hen⟩
            · rw [Option.map_eq_some_iff] at e
              obtain ⟨t, e1, e2⟩ := e
              obtain ⟨hs, hx⟩ := start_same e1
              split at e2
              · cases e2
                intro _ hb
                have hb : t.base = .opened := hb
                have h1 : t.base = s.base := hs.base
                rw [h1, hbc] at hb
                cases hb
              · cases e2
                intro hr _
                show t.st ≠ .shutdown ∧ (t.st = .disabled ∨ t.st = .inDisable ∨ t.st = .openDisable → t.enabled = false)
                rcases hx with a | a | a | a <;> simp [a]
  | shutdown =>
    simp only [step] at e
    split at e
    · cases e; exact hk
    · rename_i hf
      simp only [not_or] at hf
      rcases shutdown_good h (by simpa using hf.2) hca with ⟨e1, _⟩ | ⟨t, p', e1, _⟩
      · rw [e1] at e; cases e; exact hk
      · rw [e1] at e; cases e
        intro _ hb
        cases hb
  | enable en d ok =>
    simp only [step] at e
    split at e
    · cases e; exact hk
    · rename_i hf
      simp only [not_or] at hf
      exact enable_keeps h hk (by simpa using hf.2) hca hn e
  | free =>
    simp only [step] at e
    split at e
    · cases e; exact hk
    · unfold accFree at e
      dsimp only at e
      split at e
      · rw [Option.map_eq_some_iff] at e
        obtain ⟨t, e1, e2⟩ := e
        cases e2
        intro _ hb
        dsimp only at hb
        split at hb <;> cases hb
      · cases e; exact hk
  | report =>
    simp only [step] at e
    split at e
    · cases e; exact hk
    · cases e
      intro _ hb
      split at hb <;> cases hb
  | disableIo i ok =>
    have hca : (s.conns i).user = false := hca
    simp only [step, hca, Bool.not_false, if_true] at e
    cases e; exact hk
  | _ => exact absurd ⟨by simp, by simp, by simp, by simp, by simp, by simp⟩ ho

/-- A condition on every step of a run. -/
def Always (q : Na → Op → Prop) (s : Na) : List Op → Prop
  | [] => True
  | o :: os => q s o ∧ ∀ s', step s o = some s' → Always q s' os

theorem run_keeps {s : Na} {p} (h : Inv s p) (hk : Keeps s) : ∀ {ops s'}, Careful s ops → Always noReady s ops → run s ops = some s' → Keeps s' := by
  intro ops
  induction ops generalizing s p with
  | nil => intro s' _ _ e; cases e; exact hk
  | cons o os ih =>
    rintro s' ⟨h1, h2⟩ ⟨n1, n2⟩ e
    obtain ⟨t, p', e1, hi⟩ := step_good h o h1
    simp only [run, e1, Option.bind_some] at e
    exact ih hi (step_keeps h hk o h1 n1 e1) (h2 t e1) (n2 t e1) e

end Gensio.Conacc
