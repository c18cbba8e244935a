import Verif.Model.SerConf

/-!
# Requests to the serial device gensio and its close: C216, C217
-/

namespace Gensio.SerConf

/-- What holds in every run in which the gensio is not freed while a request
is answered. -/
structure Inv (s : S) : Prop where
  iod : s.opn = true ∨ s.q ≠ [] → s.iod = true
  pend : s.pend = true ↔ s.rn ≠ .idle
  due : s.q ≠ [] → s.rn ≠ .idle
  que : s.rn = .queued → s.q ≠ []
  fr : s.freed = true → s.rn = .idle ∧ s.opn = false ∧ s.iod = false

/-- The user frees the gensio only when no callback of a request runs. -/
def Calm (s : S) : List Ev → Prop
  | [] => True
  | e :: es => (e = .free → ∀ k, s.rn ≠ .cb k) ∧ ∀ s1 o, s.step e = some (s1, o) → Calm s1 es

/-- A checker for `Calm`. -/
def calmB (s : S) : List Ev → Bool
  | [] => true
  | e :: es => (decide (e ≠ .free) || (match s.rn with | .cb _ => false | _ => true)) &&
      match s.step e with
      | none => true
      | some (s1, _) => calmB s1 es

theorem calmB_ok (es : List Ev) (s : S) (h : calmB s es = true) : Calm s es := by
  induction es generalizing s with
  | nil => trivial
  | cons e es ih =>
    simp only [calmB, Bool.and_eq_true, Bool.or_eq_true, decide_eq_true_eq] at h
    refine ⟨?_, ?_⟩
    · intro he k hk
      rcases h.1 with h1 | h1
      · exact h1 he
      · simp [hk] at h1
    · intro s1 o hs
      apply ih
      have := h.2
      simpa [hs] using this

theorem loop_inv (s : S) (hi : Inv s) (hf : s.freed = false) (hr : s.rn ≠ .idle) :
    ∃ s1 o, s.loop = some (s1, o) ∧ Inv s1 := by
  obtain ⟨i1, i2, i3, i4, i5⟩ := hi
  cases hq : s.q with
  | nil =>
    refine ⟨{ s with pend := false, rn := .idle }, [], by simp [S.loop, hq], ?_, ?_, ?_, ?_, ?_⟩ <;> simp [hq, hf]
    intro h; exact i1 (.inl h)
  | cons k ks =>
    have h1 := i1 (.inr (by simp [hq]))
    refine ⟨{ s with q := ks, rn := .cb k }, [.answered k], by simp [S.loop, hq, h1], ?_, ?_, ?_, ?_, ?_⟩ <;> simp [h1, hf]
    exact i2.mpr hr

theorem step_inv (s : S) (e : Ev) (hi : Inv s) (hk : e = .free → ∀ k, s.rn ≠ .cb k) :
    ∃ s1 o, s.step e = some (s1, o) ∧ Inv s1 := by
  have hi' := hi
  obtain ⟨i1, i2, i3, i4, i5⟩ := hi
  cases e with
  | request k fail =>
    by_cases hf : s.freed = true
    · exact ⟨s, [], by simp [S.step, hf], hi'⟩
    · refine ⟨(s.request k fail).1, (s.request k fail).2, by simp [S.step, hf], ?_⟩
      simp only [S.request, S.startOp]
      split
      · exact hi'
      · rename_i ho
        simp only [not_or, Bool.not_eq_false, Bool.not_eq_true] at ho
        have hio := i1 (.inl ho.1)
        split
        · split
          · rename_i hp
            have hr := i2.mp hp
            constructor <;> simp [hio, hr, hp, hf]
          · constructor <;> simp [hio, hf]
        · rename_i hq
          have hr := i3 hq
          constructor <;> simp [hio, hr, hf]
          exact i2.mpr hr
  | «open» =>
    by_cases hf : s.freed = true ∨ s.iod = true
    · exact ⟨s, [], by simp [S.step, hf], hi'⟩
    · refine ⟨{ s with opn := true, iod := true }, [], by simp [S.step, hf], ?_⟩
      constructor <;> grind
  | close =>
    by_cases hf : s.freed = true
    · exact ⟨s, [], by simp [S.step, hf], hi'⟩
    · refine ⟨{ s with opn := false }, [], by simp [S.step, hf], ?_⟩
      constructor <;> grind
  | check =>
    by_cases hf : s.freed = true ∨ s.opn = true ∨ s.iod = false
    · exact ⟨s, [], by simp [S.step, hf], hi'⟩
    · by_cases hq : s.q = []
      · refine ⟨{ s with iod := false }, [.over], by simp [S.step, hf, hq], ?_⟩
        constructor <;> grind
      · exact ⟨s, [.wait], by simp [S.step, hf, hq], hi'⟩
  | run =>
    by_cases hr : s.rn = .queued
    · have hf : s.freed = false := by
        cases h : s.freed with
        | false => rfl
        | true => have := (i5 h).1; rw [hr] at this; simp at this
      obtain ⟨s1, o, h1, h2⟩ := loop_inv s hi' hf (by simp [hr])
      exact ⟨s1, o, by simp [S.step, hr, hf, h1], h2⟩
    · exact ⟨s, [], by simp [S.step, hr], hi'⟩
  | ret =>
    cases hr : s.rn with
    | idle => exact ⟨s, [], by simp [S.step, hr], hi'⟩
    | queued => exact ⟨s, [], by simp [S.step, hr], hi'⟩
    | cb k =>
      have hf : s.freed = false := by
        cases h : s.freed with
        | false => rfl
        | true => have := (i5 h).1; rw [hr] at this; simp at this
      obtain ⟨s1, o, h1, h2⟩ := loop_inv s hi' hf (by simp [hr])
      exact ⟨s1, o, by simp [S.step, hr, hf, h1], h2⟩
  | free =>
    have hk := hk rfl
    by_cases hf : s.iod = true
    · exact ⟨s, [], by simp [S.step, hf], hi'⟩
    · refine ⟨{ s with freed := true, q := [] }, [], by simp [S.step, hf], ?_⟩
      have h1 : s.q = [] := by
        apply Classical.byContradiction
        intro h; exact hf (i1 (.inr h))
      have h2 : s.rn = .idle := by
        cases h : s.rn with
        | idle => rfl
        | queued => exact absurd h1 (i4 h)
        | cb k => exact absurd h (hk k)
      constructor <;> grind

theorem init_inv : Inv init := by constructor <;> simp [init]

theorem steps_inv (es : List Ev) (s : S) (hi : Inv s) (hc : Calm s es) :
    ∃ s1 o, s.steps es = some (s1, o) ∧ Inv s1 := by
  induction es generalizing s with
  | nil => exact ⟨s, [], rfl, hi⟩
  | cons e es ih =>
    obtain ⟨s1, o1, h1, hi1⟩ := step_inv s e hi hc.1
    obtain ⟨s2, o2, h2, hi2⟩ := ih s1 hi1 (hc.2 s1 o1 h1)
    exact ⟨s2, o1 ++ o2, by simp [S.steps, h1, h2], hi2⟩

/-- The requests that were accepted. -/
def accepted (o : List Out) : List Nat := o.filterMap fun x => match x with | .accepted k => some k | _ => none

/-- The requests that were answered. -/
def answered (o : List Out) : List Nat := o.filterMap fun x => match x with | .answered k => some k | _ => none

theorem order_step (s s1 : S) (e : Ev) (o : List Out) (hf : e = .free → s.iod = true ∨ s.q = []) (h : s.step e = some (s1, o)) :
    answered o ++ s1.q = s.q ++ accepted o := by
  have hloop : ∀ s1 o, s.loop = some (s1, o) → answered o ++ s1.q = s.q ++ accepted o := by
    intro s1 o h
    simp only [S.loop] at h
    split at h
    · rename_i hq
      simp only [Option.some.injEq, Prod.mk.injEq] at h
      rw [← h.1, ← h.2]; simp [answered, accepted, hq]
    · rename_i k ks hq
      split at h
      · simp only [Option.some.injEq, Prod.mk.injEq] at h
        rw [← h.1, ← h.2]; simp [answered, accepted, hq]
      · simp at h
  cases e with
  | request k fail =>
    simp only [S.step, S.request, S.startOp] at h
    split at h
    · simp only [Option.some.injEq, Prod.mk.injEq] at h
      rw [← h.1, ← h.2]; simp [answered, accepted]
    · split at h
      · simp only [Option.some.injEq, Prod.mk.injEq] at h
        rw [← h.1, ← h.2]; simp [answered, accepted]
      · split at h
        · rename_i hq
          simp only [Option.some.injEq, Prod.mk.injEq] at h
          rw [← h.1, ← h.2]
          split <;> simp [answered, accepted, hq]
        · simp only [Option.some.injEq, Prod.mk.injEq] at h
          rw [← h.1, ← h.2]; simp [answered, accepted]
  | «open» => simp only [S.step] at h; split at h <;> simp only [Option.some.injEq, Prod.mk.injEq] at h <;> rw [← h.1, ← h.2] <;> simp [answered, accepted]
  | close => simp only [S.step] at h; split at h <;> simp only [Option.some.injEq, Prod.mk.injEq] at h <;> rw [← h.1, ← h.2] <;> simp [answered, accepted]
  | check =>
    simp only [S.step] at h
    split at h
    · simp only [Option.some.injEq, Prod.mk.injEq] at h
      rw [← h.1, ← h.2]; simp [answered, accepted]
    · split at h <;> simp only [Option.some.injEq, Prod.mk.injEq] at h <;> rw [← h.1, ← h.2] <;> simp [answered, accepted]
  | run =>
    simp only [S.step] at h
    split at h
    · split at h
      · simp at h
      · exact hloop _ _ h
    · simp only [Option.some.injEq, Prod.mk.injEq] at h
      rw [← h.1, ← h.2]; simp [answered, accepted]
  | ret =>
    simp only [S.step] at h
    split at h
    · split at h
      · simp at h
      · exact hloop _ _ h
    · simp only [Option.some.injEq, Prod.mk.injEq] at h
      rw [← h.1, ← h.2]; simp [answered, accepted]
  | free =>
    have hf := hf rfl
    simp only [S.step] at h
    split at h
    · simp only [Option.some.injEq, Prod.mk.injEq] at h
      rw [← h.1, ← h.2]; simp [answered, accepted]
    · rename_i hi
      rcases hf with hf | hf
      · exact absurd hf hi
      · simp only [Option.some.injEq, Prod.mk.injEq] at h
        rw [← h.1, ← h.2]; simp [answered, accepted, hf]

/-- **C216, partial**: no run uses the device when it is not there, or memory
that was given back; the requests that were answered are exactly those that
were accepted, in order, up to those in the queue; the runner is on its way
while there are any; and they are gone when the close is over.  Partial: the
gensio must not be freed while the callback of a request runs; see
`C216_free_violated`. -/
theorem C216_answers_partial (es : List Ev) (hc : Calm init es) :
    ∃ s o, init.steps es = some (s, o) ∧ answered o ++ s.q = accepted o ∧ (s.q ≠ [] → s.rn ≠ .idle) ∧
      (s.iod = false ∨ s.freed = true → answered o = accepted o) := by
  have all : ∀ (es : List Ev) (s : S), Inv s → Calm s es →
      ∃ s1 o, s.steps es = some (s1, o) ∧ Inv s1 ∧ answered o ++ s1.q = s.q ++ accepted o := by
    intro es
    induction es with
    | nil => intro s hi _; exact ⟨s, [], rfl, hi, by simp [answered, accepted]⟩
    | cons e es ih =>
      intro s hi hc
      obtain ⟨s1, o1, h1, hi1⟩ := step_inv s e hi hc.1
      have g1 := order_step s s1 e o1 (fun _ => by
        by_cases hq : s.q = []
        · exact .inr hq
        · exact .inl (hi.iod (.inr hq))) h1
      obtain ⟨s2, o2, h2, hi2, g2⟩ := ih s1 hi1 (hc.2 s1 o1 h1)
      refine ⟨s2, o1 ++ o2, by simp [S.steps, h1, h2], hi2, ?_⟩
      have e1 : answered (o1 ++ o2) = answered o1 ++ answered o2 := by simp [answered]
      have e2 : accepted (o1 ++ o2) = accepted o1 ++ accepted o2 := by simp [accepted]
      rw [e1, e2, List.append_assoc, g2, ← List.append_assoc, g1, List.append_assoc]
  obtain ⟨s, o, h1, hi, h2⟩ := all es init init_inv hc
  have h2 : answered o ++ s.q = accepted o := by simpa [init] using h2
  refine ⟨s, o, h1, h2, hi.due, ?_⟩
  intro h
  have hq : s.q = [] := by
    apply Classical.byContradiction
    intro hq
    have := hi.iod (.inr hq)
    rcases h with h | h
    · rw [h] at this; simp at this
    · rw [(hi.fr h).2.2] at this; simp at this
  rw [← h2, hq, List.append_nil]

example : calmB init [.open, .request 1 false, .request 2 false, .request 9 true, .close, .check, .run, .ret, .check, .ret,
    .free] = true ∧
    (init.steps [.open, .request 1 false, .request 2 false, .request 9 true, .close, .check, .run, .ret, .check, .ret,
      .free]).map (fun r => r.2) =
      some [.accepted 1, .accepted 2, .refused, .wait, .answered 1, .answered 2, .over] := by decide +kernel

/-- A request is accepted exactly when the device is open and its value is good. -/
theorem C216_accepted (s : S) (k : Nat) (fail : Bool) (hf : s.freed = false) :
    ∃ s1, s.step (.request k fail) = some (s1, if s.opn = true ∧ fail = false then [.accepted k] else [.refused]) ∧
      (¬ (s.opn = true ∧ fail = false) → s1 = s) := by
  simp only [S.step, hf, S.request]
  by_cases h1 : s.opn = true <;> by_cases h2 : fail = true <;> by_cases h3 : s.q = [] <;> simp [h1, h2, h3]

/-- **C216**: with one run of the callback after the other, all requests in the
queue are answered in order and the runner ends. -/
theorem C216_progress (s : S) (hf : s.freed = false) (hi : s.iod = true) (k : Nat) (hr : s.rn = .cb k) :
    ∃ s1, s.steps (List.replicate (s.q.length + 1) .ret) = some (s1, s.q.map .answered) ∧ s1.q = [] ∧ s1.rn = .idle ∧
      s1.pend = false := by
  generalize hn : s.q = l
  induction l generalizing s k with
  | nil =>
    refine ⟨{ s with pend := false, rn := .idle }, ?_, hn, rfl, rfl⟩
    simp [S.steps, S.step, hr, hf, S.loop, hn]
  | cons j l ih =>
    obtain ⟨s1, h1, h2⟩ := ih { s with q := l, rn := .cb j } hf hi j rfl rfl
    refine ⟨s1, ?_, h2⟩
    rw [List.length_cons, List.replicate_succ]
    have h0 : s.step .ret = some ({ s with q := l, rn := .cb j }, [.answered j]) := by
      simp [S.step, hr, hf, S.loop, hn, hi]
    simp [S.steps, h0, h1]

/-- **C216 is violated**: the close looks at the queue, but the request whose
callback runs is not in the queue any more: the close is over, the gensio is
freed, and when the callback returns its lock is used. -/
theorem C216_free_violated :
    (∃ s, init.steps [.open, .request 1 false, .run, .close, .check, .free] =
      some (s, [.accepted 1, .answered 1, .over]) ∧ s.freed = true ∧ s.rn = .cb 1) ∧
    init.steps [.open, .request 1 false, .run, .close, .check, .free, .ret] = none :=
  ⟨⟨_, rfl, by decide +kernel, by decide +kernel⟩, by decide +kernel⟩

/-! ## Draining -/

theorem total_checks (cs : List Nat) (d d' : D) (h : d.checks cs = some d') (hl : 0 < d.last) (ht : 0 ≤ d.left) :
    (cs.length : Int) ≤ d.left := by
  induction cs generalizing d with
  | nil => simpa using ht
  | cons c cs ih =>
    simp only [D.checks] at h
    cases hc : d.check c with
    | none => simp [hc] at h
    | some d1 =>
      simp only [hc] at h
      have : d1.left = d.left - 1 ∧ 0 < d1.last ∧ 0 ≤ d1.left := by
        simp only [D.check] at hc
        grind
      have h1 := ih d1 h this.2.1 this.2.2
      simp only [List.length_cons]
      omega

/-- **C217**: with a drain time, the close looks at the output at most that
often before it is over, whatever it finds. -/
theorem C217_total (d d' : D) (cs : List Nat) (ht : 0 ≤ d.total) (h : d.start.checks cs = some d') :
    (cs.length : Int) ≤ d.total := by
  cases cs with
  | nil => simpa using ht
  | cons c cs =>
    simp only [D.checks] at h
    cases hc : d.start.check c with
    | none => simp [hc] at h
    | some d1 =>
      simp only [hc] at h
      have : d1.left = d.total - 1 ∧ 0 < d1.last ∧ 0 ≤ d1.left := by
        simp only [D.check, D.start] at hc
        grind
      have h1 := total_checks cs d1 d' h this.2.1 this.2.2
      simp only [List.length_cons]
      omega

theorem char_checks (cs : List Nat) (d d' : D) (h : d.checks cs = some d') (hl : 0 < d.last) (ht : 0 ≤ d.cleft)
    (hc : ∀ c ∈ cs, d.last ≤ c) : (cs.length : Int) ≤ d.cleft := by
  induction cs generalizing d with
  | nil => simpa using ht
  | cons c cs ih =>
    simp only [D.checks] at h
    cases hk : d.check c with
    | none => simp [hk] at h
    | some d1 =>
      simp only [hk] at h
      have hcc := hc c (List.mem_cons_self ..)
      have : d1.cleft = d.cleft - 1 ∧ d1.last = d.last ∧ 0 ≤ d1.cleft := by
        simp only [D.check] at hk
        grind
      have h1 := ih d1 h (by omega) this.2.2 (fun x hx => by rw [this.2.1]; exact hc x (List.mem_cons_of_mem _ hx))
      simp only [List.length_cons]
      omega

/-- **C217**: with a wait for a character, the close is over when it has looked
that often and the output has not become less. -/
theorem C217_char (d d1 d' : D) (c : Nat) (cs : List Nat) (ht : 0 ≤ d.char) (hn : d.last = 0 ∨ c < d.last)
    (h1 : d.check c = some d1) (h : d1.checks cs = some d') (hc : ∀ x ∈ cs, c ≤ x) :
    (cs.length : Int) + 1 ≤ d.char := by
  have : d1.cleft = d.char - 1 ∧ d1.last = c ∧ 0 < c ∧ 0 ≤ d1.cleft := by
    simp only [D.check] at h1
    grind
  have := char_checks cs d1 d' h (by omega) this.2.2.2 (by rw [this.2.1]; exact hc)
  omega

/-- The output becomes less from look to look. -/
def Falls : Nat → List Nat → Prop
  | _, [] => True
  | n, c :: cs => 0 < c ∧ c < n ∧ Falls c cs

/-- **C217**: without a drain time, the close waits as long as the output
becomes less from look to look and is not empty, if it waits for a character
at all. -/
theorem C217_waits (cs : List Nat) (d : D) (n : Nat) (hd : d.left < 0) (hl : d.last = n) (hn : 0 < n) (hc : d.char ≠ 0)
    (hf : Falls n cs) : ∃ d', d.checks cs = some d' := by
  induction cs generalizing d n with
  | nil => exact ⟨d, rfl⟩
  | cons c cs ih =>
    obtain ⟨f1, f2, f3⟩ := hf
    have : ∃ d1, d.check c = some d1 ∧ d1.left = d.left ∧ d1.last = c ∧ d1.char = d.char := by
      refine ⟨{ d with left := d.left, cleft := if 0 ≤ d.char then d.char - 1 else d.char, last := c }, ?_, rfl, rfl, rfl⟩
      simp only [D.check]
      rw [if_neg (by omega), if_neg (by omega : ¬ d.last = 0), if_neg (by omega), if_neg (by omega : ¬ (0 ≤ d.left))]
      have h1 : (d.last = 0 ∨ c < d.last) = True := by simp; omega
      simp only [h1, if_true]
      rw [if_neg hc]
    obtain ⟨d1, g1, g2, g3, g4⟩ := this
    simp only [D.checks, g1]
    exact ih d1 c (by omega) g3 (by omega) (by rw [g4]; exact hc) f3

/-- **C217**: with nothing left in the output, the close is over. -/
theorem C217_empty (d : D) (cs : List Nat) : d.checks (0 :: cs) = none := by simp [D.checks, D.check]

/-- **C217**: with both times off, a device that is stuck keeps the close for
ever, as the manual says. -/
theorem C217_off (d : D) (k c : Nat) (ht : d.total < 0) (hc : d.char < 0) (h0 : 0 < c) :
    ∃ d', d.start.checks (List.replicate k c) = some d' := by
  have all : ∀ (k : Nat) (e : D), e.total < 0 → e.char < 0 → (e.last = 0 ∨ (e.left < 0 ∧ e.cleft < 0)) →
      ∃ d', e.checks (List.replicate k c) = some d' := by
    intro k
    induction k with
    | zero => intro e _ _ _; exact ⟨e, rfl⟩
    | succ k ih =>
      intro e h1 h2 h3
      have : ∃ e1, e.check c = some e1 ∧ e1.total < 0 ∧ e1.char < 0 ∧ e1.left < 0 ∧ e1.cleft < 0 := by
        simp only [D.check]
        grind
      obtain ⟨e1, g1, g2, g3, g4⟩ := this
      rw [List.replicate_succ]
      simp only [D.checks, g1]
      exact ih e1 g2 g3 (.inr g4)
  exact all k d.start ht hc (.inl rfl)

/-- The default, .5 seconds for a character: the close waits while data goes
out, and is over at the 50th look after the last that went out. -/
example : (D.checks { total := -1, char := 50 } ([100, 90, 80] ++ List.replicate 49 80)).isSome = true ∧
    (D.checks { total := -1, char := 50 } ([100, 90, 80] ++ List.replicate 50 80)).isSome = false ∧
    (D.checks { total := 20, char := 50 } ((List.range 20).map fun i => 100 - i)).isSome = true ∧
    (D.checks { total := 20, char := 50 } ((List.range 21).map fun i => 100 - i)).isSome = false := by decide +kernel

end Gensio.SerConf
