import Verif.Lemmas.StdioLifeStep4

/-!
# The life of the stdio gensio: C208–C210
-/

namespace Gensio.StdioLife

/-- The program has not ended. -/
def busy : W := { rv := GE_INPROGRESS }

/-- A session that is opened and closed while the program still runs for a
moment, as usual. -/
def session : List Ev :=
  [.open .io 0, .run .io, .close .io true, .run .io, .cleared .io false false {}, .cleared .io true false busy,
   .timeout false { code := 3 }, .cbRet .io]

/-- It gives the reports and the exit code. -/
example : ∃ s, init.run (session ++ [.exitCode, .free .io, .freeEnd .io]) =
    some (s, [.exec 0, .ret 0, .opened .io, .ret 0, .waited 0 3, .closed .io, .code 3, .gone .io]) ∧
    s.freed = true ∧ s.ref = 0 := by
  refine ⟨_, rfl, by decide, by decide⟩

/-! ## C208: memory -/

/-- **C208 is violated**: `close_done` wakes another thread, which calls
`gensio_free`.  It sets `in_free`, unlocks and is about to free the gensio
(`gensio_stdio.c:861-864`), when `close_done` returns and the first thread
sees `in_free` and a gensio and frees it (`:362-366`).  The other thread frees
it again (or frees NULL). -/
theorem C208_race_violated :
    ∃ s os, init.run [.open .io 0, .run .io, .close .io true, .run .io, .cleared .io false false {},
        .cleared .io true false {}, .free .io, .cbRet .io] = some (s, os) ∧
      os.getLast? = some (.gone .io) ∧ s.step (.freeEnd .io) = none := by
  refine ⟨_, _, rfl, by decide, by decide⟩

/-- **C208 is violated**: a stderr channel is allocated and freed without use,
and allocated again.  `in_free` was never set back, so when the user closes
the second one it is freed under the user after `close_done`. -/
theorem C208_realloc_violated :
    ∃ s os, init.run [.open .io 0, .run .io, .alloc, .free .err, .freeEnd .err] = some (s, os) ∧
      ∃ s' os', s.run [.alloc, .open .err 0, .run .err, .close .err true, .run .err,
        .cleared .err false false {}, .cbRet .err] = some (s', os') ∧
        os' = [.ret 0, .ret 0, .opened .err, .ret 0, .closed .err, .gone .err] := by
  refine ⟨_, _, rfl, _, _, rfl, by decide⟩

/-- **C208 is violated**: a stderr channel that was closed is opened again, as
the documentation of `gensio_close` allows: its descriptor is gone and NULL is
used.  The same if the main channel was closed between the allocation and the
open. -/
theorem C208_reopen_violated :
    init.run [.open .io 0, .run .io, .alloc, .open .err 0, .run .err, .close .err true, .run .err,
        .cleared .err false false {}, .cbRet .err, .open .err 0] = none ∧
    init.run ([.open .io 0, .run .io, .alloc, .close .io true, .run .io, .cleared .io false false {},
        .cleared .io true false {}, .cbRet .io, .open .err 0]) = none := by
  decide +kernel

/-- **C208 is violated**: the open of the stderr channel fails while the main
channel is open.  It closes the descriptors of the main channel
(`gensio_stdio.c:740-748`), whose close then uses NULL. -/
theorem C208_errfail_violated :
    ∃ s os, init.run [.open .io 0, .run .io, .alloc, .open .err 1] = some (s, os) ∧
      s.io.closed = false ∧ s.io.inI = none ∧ s.io.outI = none ∧
      s.run [.close .io true, .run .io] = none := by
  refine ⟨_, _, rfl, by decide, by decide, by decide, by decide +kernel⟩

/-! ## C209: the report of a close -/

/-- **C209 is violated**: in the second session of a gensio the user closes
the main channel and then stderr.  `closing_chan` still names the main channel
(`gensio_stdio.c:376`, it is never set back), so the end of the close is run
for the wrong channel: all handlers are gone, no timer runs, nothing is due,
and `close_done` of stderr was not called. -/
theorem C209_lost_violated :
    ∃ s os, init.run (session ++ [.open .io 0, .run .io, .alloc, .open .err 0, .run .err,
        .close .io true, .run .io, .cleared .io true false {}, .cleared .io false false {}, .cbRet .io,
        .close .err true, .run .err, .cleared .err false false {}]) = some (s, os) ∧
      Out.closed .err ∉ os ∧ s.err.cdone = true ∧ s.err.inClose = true ∧
      s.err.outReg = none ∧ s.io.outReg = none ∧ s.io.inReg = none ∧ s.timer = false ∧
      s.err.opPend = false ∧ s.io.opPend = false := by
  refine ⟨_, _, rfl, ?_⟩
  decide +kernel

/-- **C209 is violated**: in the second session of a gensio the user closes
stderr while the main channel is open.  The end of that close is run for the
main channel, and closes its descriptors while their handlers are set: the
assertion of `gensio_unix_close` fails. -/
theorem C209_abort_violated :
    init.run (session ++ [.open .io 0, .run .io, .alloc, .open .err 0, .run .err,
        .close .err true, .run .err, .cleared .err false false {}]) = none := by
  decide +kernel

/-- **C209 is violated**: "You cannot re-open the gensio until both are closed"
(`man/gensio.5:985-987`), but the open is accepted; the descriptor of stderr
is replaced while its handlers are set, so that the close of stderr clears
nothing and never ends. -/
theorem C209_both_violated :
    ∃ s os, init.run [.open .io 0, .run .io, .alloc, .open .err 0, .run .err,
        .close .io true, .run .io, .cleared .io true false {}, .cleared .io false false {}, .cbRet .io] = some (s, os) ∧
      s.err.closed = false ∧
      ∃ s' os', s.run [.open .io 0, .run .io, .close .err true, .run .err] = some (s', os') ∧
        Out.exec 1 ∈ os' ∧ s'.err.cdone = true ∧ s'.err.opPend = false ∧ s'.err.outClr = false ∧
        s'.timer = false ∧ s'.opid = some 1 := by
  refine ⟨_, _, rfl, by decide, _, _, rfl, ?_⟩
  decide +kernel

/-! ## C210: the exit code -/

/-- **C210 is violated**: after `GENSIO_CONTROL_WAIT_TASK` gave the status, the
exit code can not be asked for, not even after the close: `exit_code_set` is
not set (`gensio_stdio.c:966-969`). -/
theorem C210_waited_violated :
    ∃ s, init.run [.open .io 0, .run .io, .waitTask { code := 3 }, .close .io true, .run .io,
        .cleared .io false false {}, .cleared .io true false {}, .cbRet .io, .exitCode] =
      some (s, [.exec 0, .ret 0, .opened .io, .waited 0 3, .ret 0, .ret 0, .closed .io, .ret GE_NOTREADY]) := by
  refine ⟨_, rfl⟩

/-- **C210 is violated**: while the program of the second session runs, the
exit code of the first is given. -/
theorem C210_stale_violated :
    ∃ s, init.run (session ++ [.open .io 0, .run .io, .exitCode]) =
      some (s, [.exec 0, .ret 0, .opened .io, .ret 0, .waited 0 3, .closed .io, .exec 1, .ret 0, .opened .io, .code 3]) ∧
      s.opid = some 1 := by
  refine ⟨_, rfl, by decide⟩

/-- **C210 is violated**: `waitpid_retries` is never set back.  When the waits
of all sessions so far have used up the 1000 tries, a close does not wait at
all: the program still runs, nobody will wait for it, and the exit code of an
earlier session is given. -/
theorem C210_retries_violated (s : S) (hr : s.retries = NUM_WAIT_RETRIES) (p : Nat)
    (hp : s.opid = some p) (hc : s.closing = none ∨ s.closing = some .io) (h1 : s.io.inReg = some 0)
    (h2 : s.io.outReg = none) (h3 : s.err.outReg = none) (h4 : s.io.inI = some 0) (h5 : s.io.outI = none)
    (h6 : s.io.outH = false) (h7 : s.err.outH = false) (h8 : s.io.inClose = true) (h9 : s.io.cdone = true)
    (h10 : s.io.inClr = true) (h11 : s.err.outI = none) (h12 : s.codeSet = true) :
    ∃ s', s.step (.cleared .io true false busy) = some (s', [.closed .io]) ∧ s'.opid = some p ∧
      s'.exitCode = [.code s.code] := by
  rcases hc with hc | hc <;>
  simp [S.step, S.ch, S.set, S.fdCleared, S.clearedNext, S.check, S.tryAgain, S.closeAnyway, S.closeIod, hr, hp, hc, h1, h4, h5,
    h6, h7, h8, h9, h10, h11, h12, busy, GE_INPROGRESS, S.exitCode]

/-- Such a state is reached: a program that takes ten seconds to end, then a
second session. -/
example : ((init.run ([.open .io 0, .run .io, .close .io true, .run .io, .cleared .io false false {},
    .cleared .io true false busy] ++ List.replicate 999 (.timeout false busy) ++
    [.timeout false { code := 3 }, .cbRet .io, .open .io 0, .run .io, .close .io true, .run .io,
     .cleared .io false false {}, .cleared .io true false busy, .cbRet .io, .exitCode])).map
      (fun r => (r.1.opid, r.1.retries, r.2.drop 6))) =
    some (some 1, 1000, [.exec 1, .ret 0, .opened .io, .ret 0, .closed .io, .code 3]) := by
  decide +kernel


/-! ## What a careful user gets -/

/-- The user is careful at every step. -/
def CarefulRun : S → List Ev → Prop
  | _, [] => True
  | s, e :: es => Careful s e ∧ ∀ s' os, s.step e = some (s', os) → CarefulRun s' es

theorem run_inv (es : List Ev) (s : S) (hi : Inv s) (hc : CarefulRun s es) :
    ∃ s' os, s.run es = some (s', os) ∧ Inv s' := by
  induction es generalizing s with
  | nil => exact ⟨s, [], rfl, hi⟩
  | cons e es ih =>
    obtain ⟨h1, h2⟩ := step_both s e hi hc.1
    cases hs : s.step e with
    | none => exact absurd hs h1
    | some r =>
      obtain ⟨s1, o⟩ := r
      obtain ⟨s2, o2, h3, h4⟩ := ih s1 (h2 s1 o hs) (hc.2 s1 o hs)
      exact ⟨s2, o ++ o2, by simp [S.run, hs, h3], h4⟩

/-- **C208, partial**: for a careful user, however the steps of the system and
the calls are mixed, no assertion fails and NULL is never used; the count of
references is the number of gensios, handlers, deferred operations, timers and
running callbacks there are; and the memory is given back exactly when none of
them is left.  Partial: the careful user; see the counterexamples above. -/
theorem C208_refs_partial (es : List Ev) (hc : CarefulRun init es) :
    ∃ s os, init.run es = some (s, os) ∧
      s.ref = ([s.io.here, s.err.here, s.io.inReg.isSome, s.io.outReg.isSome, s.err.outReg.isSome, s.io.opPend,
        s.err.opPend, s.timer, s.io.inCb, s.err.inCb].filter id).length ∧
      (s.freed = true ↔ s.io.here = false ∧ s.err.here = false ∧ s.io.inReg = none ∧ s.io.outReg = none ∧
        s.err.outReg = none ∧ s.io.opPend = false ∧ s.err.opPend = false ∧ s.timer = false ∧
        s.io.inCb = false ∧ s.err.inCb = false) := by
  obtain ⟨s, os, h, hi⟩ := run_inv es init inv_init hc
  have hz : ∀ b, n b = 0 ↔ b = false := by intro b; cases b <;> simp
  have hs : ∀ x : Option Nat, x.isSome = false ↔ x = none := by intro x; cases x <;> simp
  have hf : ∀ (b : Bool) (l : List Bool), ((b :: l).filter id).length = n b + (l.filter id).length := by
    intro b l; cases b <;> simp <;> omega
  refine ⟨s, os, h, ?_, ?_⟩
  · rw [hi.ref]; simp only [hf, S.held, List.filter_nil, List.length_nil]; omega
  · rw [hi.fd, hi.ref]
    simp only [S.held, beq_iff_eq, Nat.add_eq_zero_iff, hz, hs]
    grind

/-- The user of a usual session is careful, and at the end the memory is given
back. -/
example : CarefulRun init (session ++ [.exitCode, .free .io, .freeEnd .io]) := by
  simp [session, CarefulRun, Careful, init, S.step, S.openCall, S.openHandlers, S.startOp, S.set, S.ch, S.closeCall,
    S.iClose, S.runOp, S.deref, S.fdCleared, S.clearedNext, S.check, S.closeIod, busy, GE_INPROGRESS, S.tryAgain,
    NUM_WAIT_RETRIES, S.closeAnyway, S.cbRet, S.exitCode, S.freeCall, S.freeEnd]

/-- `close_done` of a channel in what is seen. -/
def reports (c : C) (os : List Out) : Nat := os.count (.closed c)

/-- The calls of `gensio_close` with a `close_done`. -/
def closes (c : C) (es : List Ev) : Nat := es.count (.close c true)

/-- The weight of a channel: 1 if a report is due. -/
def due (s : S) (c : C) : Nat := n (s.ch c).cdone

theorem due_deref (s s' : S) (c : C) (h : s.deref = some s') : due s' c = due s c := by
  rw [deref_eq _ _ h]; cases c <;> rfl

theorem reports_append (c : C) (a b : List Out) : reports c (a ++ b) = reports c a + reports c b := by
  simp [reports]

theorem due_set (s : S) (c d : C) (h : Ch) : due (s.set d h) c = if c = d then n h.cdone else due s c := by
  cases c <;> cases d <;> simp [due, S.set, S.ch]

theorem closeAnyway_once (s s' : S) (c d : C) (o os : List Out) (h : s.closeAnyway d o = some (s', os)) :
    reports c os + due s' c ≤ reports c o + due s c := by
  simp only [S.closeAnyway] at h
  split at h
  · split at h
    · rename_i hd
      simp only [Option.some.injEq, Prod.mk.injEq] at h
      obtain ⟨h1, h2⟩ := h
      subst h1; subst h2
      rw [due_set, reports_append]
      split
      · rename_i hcd; subst hcd
        simp [reports, due, hd]
      · rename_i hcd
        have : (Out.closed d == Out.closed c) = false := by
          rw [beq_eq_false_iff_ne]; intro h; apply hcd; injection h with h; exact h.symm
        simp [reports, this, List.count_cons]
    · rename_i hd
      split at h
      · split at h
        · simp at h
        · split at h
          · simp at h
          · rename_i q hq
            simp only [Option.some.injEq, Prod.mk.injEq] at h
            obtain ⟨h1, h2⟩ := h
            subst h1; subst h2
            rw [due_deref _ _ c hq, due_set, reports_append]
            have : reports c [Out.gone d] = 0 := by simp [reports]
            split
            · rename_i hcd; subst hcd; simp [this, due]
            · simp only [this, due, S.ch]; cases c <;> simp
      · split at h
        · simp at h
        · rename_i q hq
          simp only [Option.some.injEq, Prod.mk.injEq] at h
          obtain ⟨h1, h2⟩ := h
          subst h1; subst h2
          rw [due_deref _ _ c hq, due_set]
          split
          · rename_i hcd; subst hcd; simp [due]
          · simp
  · simp at h

theorem tryAgain_once (s s' : S) (c d : C) (os : List Out) (h : s.tryAgain d = some (s', os)) :
    reports c os + due s' c ≤ due s c := by
  simp only [S.tryAgain] at h
  split at h
  · simpa [reports] using closeAnyway_once s s' c d [] os h
  · split at h
    · simp at h
    · split at h
      · simp at h
      · rename_i q hq
        simp only [Option.some.injEq, Prod.mk.injEq] at h
        obtain ⟨h1, h2⟩ := h
        subst h1; subst h2
        rw [due_deref _ _ c hq]
        cases c <;> simp [reports, due, S.ch]

theorem check_once (s s' : S) (c d : C) (buf : Bool) (w : W) (os : List Out) (h : s.check d buf w = some (s', os)) :
    reports c os + due s' c ≤ due s c := by
  simp only [S.check] at h
  split at h
  · exact tryAgain_once _ _ _ _ _ h
  · split at h
    · have hs : ∀ e, due (s.set e { s.ch e with inI := none, outI := none }) c = due s c := by
        intro e; rw [due_set]; split
        · rename_i hce; subst hce; rfl
        · rfl
      split at h
      · have := closeAnyway_once _ _ c _ _ _ h
        rw [hs] at this
        simpa [reports] using this
      · split at h
        · split at h
          · have := tryAgain_once _ _ c _ _ h
            rw [hs] at this; exact this
          · split at h
            · refine Nat.le_trans (closeAnyway_once _ _ c _ _ _ h) ?_
              rw [← hs (s.closing.getD d), show ∀ l, (∀ x ∈ l, x ≠ Out.closed c) → reports c l = 0 from
                fun l hl => List.count_eq_zero.mpr fun hm => hl _ hm rfl, Nat.zero_add]
              · cases c <;> exact Nat.le_refl _
              · simp
            · refine Nat.le_trans (closeAnyway_once _ _ c _ _ _ h) ?_
              rw [← hs (s.closing.getD d), show ∀ l, (∀ x ∈ l, x ≠ Out.closed c) → reports c l = 0 from
                fun l hl => List.count_eq_zero.mpr fun hm => hl _ hm rfl, Nat.zero_add]
              · cases c <;> exact Nat.le_refl _
              · simp
        · have := closeAnyway_once _ _ c _ _ _ h
          rw [hs] at this
          simpa [reports] using this
    · simp at h

theorem clearedNext_once (s s' : S) (c d : C) (buf : Bool) (w : W) (os : List Out)
    (h : s.clearedNext d buf w = some (s', os)) : reports c os + due s' c ≤ due s c := by
  simp only [S.clearedNext] at h
  split at h
  · split at h
    · split at h
      · have := check_once _ _ c _ _ _ _ h
        cases c <;> exact this
      · simp at h
    · exact check_once _ _ c _ _ _ _ h
  · split at h
    · simp at h
    · rename_i q hq
      simp only [Option.some.injEq, Prod.mk.injEq] at h
      obtain ⟨h1, h2⟩ := h
      subst h1; subst h2
      rw [due_deref _ _ c hq]; simp [reports]

theorem step_once (s s' : S) (c : C) (e : Ev) (os : List Out) (h : s.step e = some (s', os)) :
    reports c os + due s' c ≤ due s c + closes c [e] := by
  cases e with
  | «open» d e =>
    simp only [S.step, S.openCall, S.openHandlers, S.startOp] at h
    cases c <;> cases d <;> simp only [due, S.ch, S.set, reports, closes] at * <;> grind
  | close d b =>
    simp only [S.step, S.closeCall, S.iClose, S.startOp] at h
    cases c <;> cases d <;> cases b <;> simp only [due, S.ch, S.set, reports, closes] at * <;> grind [n]
  | free d =>
    simp only [S.step, S.freeCall, S.iClose, S.startOp] at h
    cases c <;> cases d <;> simp only [due, S.ch, S.set, reports, closes] at * <;> grind [n]
  | freeEnd d =>
    simp only [S.step, S.freeEnd, S.deref] at h
    cases c <;> cases d <;> simp only [due, S.ch, S.set, reports, closes] at * <;> grind [n]
  | alloc =>
    simp only [S.step, S.alloc] at h
    cases c <;> simp only [due, S.ch, S.set, reports, closes] at * <;> grind [n]
  | waitTask w =>
    simp only [S.step, S.waitTask] at h
    cases c <;> simp only [due, S.ch, S.set, reports, closes] at * <;> grind [n]
  | exitCode =>
    simp only [S.step, S.exitCode] at h
    cases c <;> simp only [due, S.ch, S.set, reports, closes] at * <;> grind [n]
  | run d =>
    simp only [S.step, S.runOp, S.deref] at h
    cases c <;> cases d <;> simp only [due, S.ch, S.set, reports, closes] at * <;> grind [n]
  | cleared d wr buf w =>
    simp only [S.step] at h
    have hq : closes c [.cleared d wr buf w] = 0 := by simp [closes]
    cases wr
    all_goals
      simp only [if_true, Bool.false_eq_true, if_false] at h
      split at h
      · simp only [S.fdCleared, if_true, Bool.false_eq_true, if_false] at h
        split at h
        · refine Nat.le_trans (clearedNext_once _ _ c _ _ _ _ h) ?_
          rw [due_set]
          split
          · rename_i hcd; subst hcd; simp [due]
          · omega
        · split at h
          · refine Nat.le_trans (clearedNext_once _ _ c _ _ _ _ h) ?_
            rw [due_set]
            split
            · rename_i hcd; subst hcd; simp [due]
            · omega
          · simp at h
      · simp only [Option.some.injEq, Prod.mk.injEq] at h
        obtain ⟨h1, h2⟩ := h
        subst h1; subst h2
        simp [reports]
  | timeout buf w =>
    simp only [S.step] at h
    split at h
    · have := check_once _ _ c _ _ _ _ h
      have hx : due { s with timer := false } c = due s c := by cases c <;> rfl
      omega
    · simp only [Option.some.injEq, Prod.mk.injEq] at h
      obtain ⟨h1, h2⟩ := h
      subst h1; subst h2
      simp [reports]
  | cbRet d =>
    simp only [S.step, S.cbRet, S.deref] at h
    cases c <;> cases d <;> simp only [due, S.ch, S.set, reports, closes] at * <;> grind [n]

theorem run_once (es : List Ev) (s s' : S) (c : C) (os : List Out) (h : s.run es = some (s', os)) :
    reports c os + due s' c ≤ due s c + closes c es := by
  induction es generalizing s os with
  | nil =>
    simp only [S.run, Option.some.injEq, Prod.mk.injEq] at h
    rw [← h.1, ← h.2]; simp [reports]
  | cons e es ih =>
    simp only [S.run] at h
    split at h
    · simp at h
    · rename_i s1 o hs
      split at h
      · simp at h
      · rename_i s2 o2 hr
        simp only [Option.some.injEq, Prod.mk.injEq] at h
        obtain ⟨h1, h2⟩ := h
        subst h1; subst h2
        have e1 := step_once _ _ c _ _ hs
        have e2 := ih s1 o2 hr
        have e3 : closes c (e :: es) = closes c [e] + closes c es := by
          simp only [closes, List.count_cons, List.count_nil]; omega
        rw [reports_append]; omega

/-- **C209, in part**: whatever the user and the system do, `close_done` of a
channel is called at most once for each call of `gensio_close` with one, and a
report that is due was asked for and not yet given. -/
theorem C209_once (es : List Ev) (c : C) (s : S) (os : List Out) (h : init.run es = some (s, os)) :
    reports c os + n (s.ch c).cdone ≤ closes c es := by
  have := run_once es init s c os h
  have h0 : due init c = 0 := by cases c <;> rfl
  simp only [due] at this h0
  omega

/-- In the usual session it is called once. -/
example : ((init.run session).map (fun r => reports .io r.2)) = some 1 ∧ closes .io session = 1 := by
  decide +kernel

/-! ### What `check_waitpid` does -/

/-- The effect of `check_waitpid` for channel `d`, as far as the progress of
closes and the exit code go. -/
structure Eff (s s' : S) (d : C) (os : List Out) : Prop where
  regs : ∀ c, (s'.ch c).inReg = (s.ch c).inReg ∧ (s'.ch c).outReg = (s.ch c).outReg ∧
    (s'.ch c).defClose = (s.ch c).defClose
  other : ∀ c, c ≠ d → (s'.ch c).cdone = (s.ch c).cdone
  pid : s'.nextPid = s.nextPid
  up : s.retries ≤ s'.retries
  done : (s.ch d).cdone = true → Out.closed d ∈ os ∨
    ((s'.ch d).cdone = true ∧ s.retries < NUM_WAIT_RETRIES ∧ s'.retries = s.retries + 1)

/-- Nothing is changed about the program. -/
def SameCode (s s' : S) : Prop := s'.opid = s.opid ∧ s'.code = s.code ∧ s'.codeSet = s.codeSet

theorem closeAnyway_eff (s s' : S) (d : C) (o os : List Out) (h : s.closeAnyway d o = some (s', os)) :
    Eff s s' d os ∧ SameCode s s' ∧ (∀ x ∈ o, x ∈ os) ∧ s'.retries = s.retries := by
  simp only [S.closeAnyway] at h
  split at h
  · split at h
    · rename_i hd
      simp only [Option.some.injEq, Prod.mk.injEq] at h
      obtain ⟨h1, h2⟩ := h
      subst h1; subst h2
      refine ⟨⟨?_, ?_, ?_, ?_, ?_⟩, ?_, ?_, ?_⟩
      · intro c; cases c <;> cases d <;> simp [S.set, S.ch]
      · intro c; cases c <;> cases d <;> simp [S.set, S.ch]
      · cases d <;> simp [S.set]
      · cases d <;> simp [S.set]
      · simp
      · cases d <;> simp [SameCode, S.set]
      · simp; intro x hx; exact .inl hx
      · cases d <;> simp [S.set]
    · rename_i hd
      have hd' : (s.ch d).cdone = false := by simpa using hd
      split at h
      · split at h
        · simp at h
        · split at h
          · simp at h
          · rename_i q hq
            simp only [Option.some.injEq, Prod.mk.injEq] at h
            obtain ⟨h1, h2⟩ := h
            rw [deref_eq _ _ hq] at h1
            subst h1; subst h2
            refine ⟨⟨?_, ?_, ?_, ?_, ?_⟩, ?_, ?_, ?_⟩
            · intro c; cases c <;> cases d <;> simp [S.set, S.ch]
            · intro c; cases c <;> cases d <;> simp [S.set, S.ch]
            · cases d <;> simp [S.set]
            · cases d <;> simp [S.set]
            · simp [hd']
            · cases d <;> simp [SameCode, S.set]
            · simp; intro x hx; exact .inl hx
            · cases d <;> simp [S.set]
      · split at h
        · simp at h
        · rename_i q hq
          simp only [Option.some.injEq, Prod.mk.injEq] at h
          obtain ⟨h1, h2⟩ := h
          rw [deref_eq _ _ hq] at h1
          subst h1; subst h2
          refine ⟨⟨?_, ?_, ?_, ?_, ?_⟩, ?_, ?_, ?_⟩
          · intro c; cases c <;> cases d <;> simp [S.set, S.ch]
          · intro c; cases c <;> cases d <;> simp [S.set, S.ch]
          · cases d <;> simp [S.set]
          · cases d <;> simp [S.set]
          · simp [hd']
          · cases d <;> simp [SameCode, S.set]
          · simp
          · cases d <;> simp [S.set]
  · simp at h

theorem tryAgain_eff (s s' : S) (d : C) (os : List Out) (h : s.tryAgain d = some (s', os)) :
    Eff s s' d os ∧ SameCode s s' ∧ (s'.timer = true ∨ NUM_WAIT_RETRIES ≤ s'.retries) := by
  simp only [S.tryAgain] at h
  split at h
  · rename_i hr
    obtain ⟨h1, h2, -, h3⟩ := closeAnyway_eff s s' d [] os h
    exact ⟨h1, h2, .inr (by omega)⟩
  · split at h
    · simp at h
    · split at h
      · simp at h
      · rename_i hr _ _ q hq
        simp only [Option.some.injEq, Prod.mk.injEq] at h
        obtain ⟨h1, h2⟩ := h
        rw [deref_eq _ _ hq] at h1
        subst h1; subst h2
        refine ⟨⟨?_, ?_, rfl, by simp, ?_⟩, ⟨rfl, rfl, rfl⟩, .inl rfl⟩
        · intro c; cases c <;> simp [S.ch]
        · intro c; cases c <;> simp [S.ch]
        · intro hd; right; refine ⟨?_, by omega, rfl⟩; cases d <;> exact hd

/-- What `check_waitpid` does to the program. -/
def CodeEff (s s' : S) (w : W) (os : List Out) : Prop :=
  (SameCode s s' ∨ ∃ p, s.opid = some p ∧ s'.opid = none ∧ s'.codeSet = true ∧
    (w.rv = 0 → s'.code = w.code ∧ Out.waited p w.code ∈ os) ∧ w.rv ≠ GE_INPROGRESS) ∧
  (s.io.outH = false → s.io.inH = false → s.err.outH = false →
    s'.opid = none ∨ s'.timer = true ∨ NUM_WAIT_RETRIES ≤ s'.retries)

theorem check_eff (s s' : S) (d0 d : C) (hd : s.closing.getD d0 = d) (buf : Bool) (w : W) (os : List Out)
    (h : s.check d0 buf w = some (s', os)) : Eff s s' d os ∧ CodeEff s s' w os := by
  simp only [S.check, hd] at h
  split at h
  · obtain ⟨h1, h2, h3⟩ := tryAgain_eff _ _ _ _ h
    exact ⟨h1, .inl h2, fun _ _ _ => .inr h3⟩
  · split at h
    · have hs : ∀ a b k, ∀ q o o', Eff { s.set d { s.ch d with inI := none, outI := none } with opid := a, codeSet := b, code := k } q d o → o = o' → Eff s q d o' := by
        intro a b k q o o' he ho
        subst ho
        obtain ⟨e1, e2, e3, e4, e5⟩ := he
        cases d <;> simp only [S.set, S.ch] at *
        · exact ⟨fun c => by have := e1 c; cases c <;> exact this, fun c hc => by have := e2 c hc; cases c <;> exact this,
            e3, e4, e5⟩
        · exact ⟨fun c => by have := e1 c; cases c <;> exact this, fun c hc => by have := e2 c hc; cases c <;> exact this,
            e3, e4, e5⟩
      have hp : (s.set d { s.ch d with inI := none, outI := none }).opid = s.opid := by cases d <;> rfl
      have hk : (s.set d { s.ch d with inI := none, outI := none }).code = s.code := by cases d <;> rfl
      have hb : (s.set d { s.ch d with inI := none, outI := none }).codeSet = s.codeSet := by cases d <;> rfl
      have hH : (s.set d { s.ch d with inI := none, outI := none }).io.outH = s.io.outH ∧
          (s.set d { s.ch d with inI := none, outI := none }).io.inH = s.io.inH ∧
          (s.set d { s.ch d with inI := none, outI := none }).err.outH = s.err.outH := by cases d <;> exact ⟨rfl, rfl, rfl⟩
      generalize hq : s.set d { s.ch d with inI := none, outI := none } = q at h hs hp hk hb hH
      have same : ∀ x, SameCode q x → SameCode s x := by
        intro x hx; simp only [SameCode] at *; rw [← hp, ← hk, ← hb]; exact hx
      have hs0 : Eff q s' d os → Eff s s' d os := fun he => hs q.opid q.codeSet q.code s' os os he rfl
      split at h
      · rename_i hn
        obtain ⟨h1, h2, -⟩ := closeAnyway_eff _ _ _ _ _ h
        exact ⟨hs0 h1, .inl (same _ h2), fun _ _ _ => .inl (by rw [h2.1, hn])⟩
      · rename_i p hn
        split at h
        · split at h
          · obtain ⟨h1, h2, h3⟩ := tryAgain_eff _ _ _ _ h
            exact ⟨hs0 h1, .inl (same _ h2), fun _ _ _ => .inr h3⟩
          · rename_i hw
            split at h
            · obtain ⟨h1, h2, h3, -⟩ := closeAnyway_eff _ _ _ _ _ h
              obtain ⟨g1, g2, g3⟩ := h2
              refine ⟨hs _ _ _ _ _ _ h1 rfl, .inr ⟨p, by rw [← hp, hn], g1, g3, fun _ => ⟨g2, h3 _ (by simp)⟩, hw⟩, fun _ _ _ => .inl g1⟩
            · rename_i hw0
              obtain ⟨h1, h2, h3, -⟩ := closeAnyway_eff _ _ _ _ _ h
              obtain ⟨g1, g2, g3⟩ := h2
              refine ⟨hs none true q.code _ _ _ h1 rfl, .inr ⟨p, by rw [← hp, hn], g1, g3, fun h => absurd h hw0, hw⟩, fun _ _ _ => .inl g1⟩
        · rename_i hh
          obtain ⟨h1, h2, -⟩ := closeAnyway_eff _ _ _ _ _ h
          refine ⟨hs0 h1, .inl (same _ h2), ?_⟩
          intro x1 x2 x3
          exact absurd (by simp [hH, x1, x2, x3]) hh
    · simp at h

/-- What `stdion_fd_cleared` has noted in `s1`. -/
structure Cleared (s s1 : S) (d : C) (wr : Bool) : Prop where
  regs : ∀ c, (s1.ch c).inReg = (if c = d ∧ wr = true then none else (s.ch c).inReg) ∧
    (s1.ch c).outReg = (if c = d ∧ wr = false then none else (s.ch c).outReg) ∧
    (s1.ch c).defClose = (s.ch c).defClose ∧ (s1.ch c).cdone = (s.ch c).cdone ∧
    (s1.ch c).inClose = (s.ch c).inClose
  hs : ∀ c, (s1.ch c).inH = (s1.ch c).inReg.isSome ∧ (s1.ch c).outH = (s1.ch c).outReg.isSome
  rest : s1.retries = s.retries ∧ s1.nextPid = s.nextPid ∧ s1.opid = s.opid ∧ s1.code = s.code ∧
    s1.codeSet = s.codeSet ∧ s1.closing = none ∧ (s1.ch d).inClose = true

theorem cleared_shape (s : S) (d : C) (wr buf : Bool) (w : W) (hi : Inv s)
    (hb : (if wr then (s.ch d).inClr else (s.ch d).outClr) = true) :
    ((if wr then (s.ch d).inReg else (s.ch d).outReg) ≠ none) ∧
    ∃ s1, Cleared s s1 d wr ∧ s.fdCleared d wr buf w = s1.clearedNext d buf w := by
  obtain ⟨⟨⟨⟨a1, a2, a3, a4, a5, a6, a7, a8, a9, a10, a11, a12, a13, a14, a15, a16, a17, a18, a19, a20, a21⟩,
    ⟨b1, b2, b3, b4, b5, b6, b7, b8, b9, b10, b11, b12, b13, b14, b15, b16, b17, b18, b19, b20, b21⟩,
    d1, d2, d3, d4, d5, d6, d7, d8⟩, m1, m2, m3, m4, m5⟩, m6, m7⟩ := hi
  cases d <;> cases wr <;> simp only [S.ch, if_true, Bool.false_eq_true, if_false] at hb ⊢
  · obtain ⟨e1, e2, e3⟩ := a6 hb
    have e4 := a4 e1
    have e5 : s.io.outI ≠ none := by rw [← e4]; exact e1
    have hcl : s.closing = none := by
      cases h : s.closing with
      | none => rfl
      | some _ => exact absurd (d8 (by simp [h])).2.1 e5
    obtain ⟨i, hii⟩ := Option.ne_none_iff_exists'.mp e5
    have e8 : s.io.outReg = some i := by rw [e4, hii]
    have e9 : s.io.inI ≠ some i := by intro h; exact absurd hii (d2 i h).1
    refine ⟨e1, { s with io := { s.io with outReg := none, outClr := false, outH := false, outI := none } }, ⟨?_, ?_, ?_⟩, ?_⟩
    · intro c; cases c <;> simp [S.ch]
    · intro c; cases c
      · exact ⟨a1, rfl⟩
      · exact ⟨b1, b2⟩
    · exact ⟨rfl, rfl, rfl, rfl, rfl, hcl, e2⟩
    · simp [S.fdCleared, S.ch, S.set, e8, hii, e9]
  · obtain ⟨e1, e2, e3⟩ := a5 hb
    have e4 := a3 e1
    have e5 : s.io.inI ≠ none := by rw [← e4]; exact e1
    have hcl : s.closing = none := by
      cases h : s.closing with
      | none => rfl
      | some _ => exact absurd (d8 (by simp [h])).1 e5
    obtain ⟨i, hii⟩ := Option.ne_none_iff_exists'.mp e5
    have e8 : s.io.inReg = some i := by rw [e4, hii]
    refine ⟨e1, { s with io := { s.io with inReg := none, inClr := false, inH := false, inI := none } }, ⟨?_, ?_, ?_⟩, ?_⟩
    · intro c; cases c <;> simp [S.ch]
    · intro c; cases c
      · exact ⟨rfl, a2⟩
      · exact ⟨b1, b2⟩
    · exact ⟨rfl, rfl, rfl, rfl, rfl, hcl, e2⟩
    · simp [S.fdCleared, S.ch, S.set, e8, hii]
  · obtain ⟨e1, e2, e3⟩ := b6 hb
    have e4 := b4 e1
    have e5 : s.err.outI ≠ none := by rw [← e4]; exact e1
    have hcl : s.closing = none := by
      cases h : s.closing with
      | none => rfl
      | some _ => exact absurd (d8 (by simp [h])).2.2.1 e5
    obtain ⟨i, hii⟩ := Option.ne_none_iff_exists'.mp e5
    have e8 : s.err.outReg = some i := by rw [e4, hii]
    have e9 : s.err.inI ≠ some i := by rw [d1.1]; simp
    refine ⟨e1, { s with err := { s.err with outReg := none, outClr := false, outH := false, outI := none } }, ⟨?_, ?_, ?_⟩, ?_⟩
    · intro c; cases c <;> simp [S.ch]
    · intro c; cases c
      · exact ⟨a1, a2⟩
      · exact ⟨b1, rfl⟩
    · exact ⟨rfl, rfl, rfl, rfl, rfl, hcl, e2⟩
    · simp [S.fdCleared, S.ch, S.set, e8, hii, e9]
  · exact absurd d1.2 (b5 hb).1

/-- After the note: another handler is left, or `check_waitpid` is run. -/
theorem clearedNext_eff (s s' : S) (d : C) (buf : Bool) (w : W) (os : List Out) (hc : s.closing = none)
    (hic : (s.ch d).inClose = true) (h : s.clearedNext d buf w = some (s', os)) :
    ((∀ c, s'.ch c = s.ch c) ∧ s'.retries = s.retries ∧ s'.nextPid = s.nextPid ∧ SameCode s s' ∧
      ((s.ch d).inH = true ∨ (s.ch d).outH = true)) ∨
    (Eff s s' d os ∧ CodeEff s s' w os) := by
  simp only [S.clearedNext] at h
  split at h
  · right
    split at h
    · split at h
      · obtain ⟨⟨e1, e2, e3, e4, e5⟩, h2⟩ := check_eff _ _ d d (by simp [hc]) _ _ _ h
        refine ⟨⟨fun c => by have := e1 c; cases c <;> exact this, fun c hx => by have := e2 c hx; cases c <;> exact this,
          e3, e4, fun hx => e5 (by cases d <;> exact hx)⟩, h2⟩
      · simp at h
    · exact check_eff _ _ d d (by simp [hc]) _ _ _ h
  · rename_i hh
    left
    split at h
    · simp at h
    · rename_i q hq
      simp only [Option.some.injEq, Prod.mk.injEq] at h
      obtain ⟨h1, h2⟩ := h
      rw [deref_eq _ _ hq] at h1
      subst h1; subst h2
      refine ⟨fun c => by cases c <;> rfl, rfl, rfl, ⟨rfl, rfl, rfl⟩, ?_⟩
      simp only [hic, Bool.true_and, Bool.and_eq_true, Bool.not_eq_true'] at hh
      cases h1 : (s.ch d).inH <;> cases h2 : (s.ch d).outH <;> simp_all

/-- What is left to be done for the close of a channel. -/
def waits (s : S) (c : C) : Nat :=
  n (s.ch c).defClose + n (s.ch c).inReg.isSome + n (s.ch c).outReg.isSome + (NUM_WAIT_RETRIES - s.retries)

/-- The steps of the system that the close of a channel waits for: its deferred
operation, the end of its handlers, and the timer. -/
def Due (s : S) (c : C) : Ev → Prop
  | .run d => d = c ∧ (s.ch c).opPend = true ∧ (s.ch c).defClose = true
  | .cleared d wr _ _ => d = c ∧ (if wr then (s.ch c).inClr else (s.ch c).outClr) = true
  | .timeout _ _ => s.timer = true ∧ s.closing = some c
  | _ => False

/-- The close of the channel comes nearer, or at least not farther away. -/
def Nearer (s s' : S) (c : C) (e : Ev) : Prop :=
  (s'.ch c).cdone = true ∧ waits s' c ≤ waits s c ∧ (Due s c e → waits s' c < waits s c)

theorem step_nearer (s s' : S) (c : C) (e : Ev) (os : List Out) (hi : Inv s) (hc : Careful s e)
    (hd : (s.ch c).cdone = true) (h : s.step e = some (s', os)) :
    Out.closed c ∈ os ∨ e = .free c ∨ Nearer s s' c e := by
  have hic : (s.ch c).inClose = true := by
    cases c
    · exact hi.core.io.cd hd
    · exact hi.core.er.cd hd
  cases e with
  | «open» d x =>
    right; right
    have hno : c = .io → d = .io → False := by
      intro h1 h2; subst h1; subst h2
      have := (hi.core.pid hc.2.2).2.2.2.2.2.2.1
      simp only [S.ch] at hic
      rw [this] at hic; simp at hic
    have hno2 : c = .err → d = .io → False := by
      intro h1 h2; subst h1; subst h2
      have := (hi.core.pid hc.2.2).2.2.2.2.2.2.2.2.2.1
      simp only [S.ch] at hic
      rw [this] at hic; simp at hic
    have hx : d = .err → x = 0 := by intro h1; subst h1; exact hc.2.2.2
    simp only [Nearer, Due, waits, false_implies, and_true]
    simp only [S.step, S.openCall, S.openHandlers, S.startOp] at h
    cases c <;> cases d <;> simp only [S.ch, S.set] at * <;> grind
  | close d b =>
    right; right
    simp only [Nearer, Due, waits, false_implies, and_true]
    simp only [S.step, S.closeCall, S.iClose, S.startOp] at h
    cases c <;> cases d <;> simp only [S.ch, S.set] at * <;> grind
  | free d =>
    by_cases hcd : d = c
    · right; left; rw [hcd]
    · right; right
      simp only [Nearer, Due, waits, false_implies, and_true]
      simp only [S.step, S.freeCall, S.iClose, S.startOp] at h
      cases c <;> cases d <;> simp only [S.ch, S.set] at * <;> grind
  | freeEnd d =>
    right; right
    simp only [Nearer, Due, waits, false_implies, and_true]
    simp only [S.step, S.freeEnd, S.deref] at h
    cases c <;> cases d <;> simp only [S.ch, S.set] at * <;> grind
  | alloc =>
    right; right
    simp only [Nearer, Due, waits, false_implies, and_true]
    simp only [S.step, S.alloc] at h
    cases c <;> simp only [S.ch, S.set] at * <;> grind
  | waitTask w =>
    right; right
    simp only [Nearer, Due, waits, false_implies, and_true]
    simp only [S.step, S.waitTask] at h
    cases c <;> simp only [S.ch, S.set] at * <;> grind
  | exitCode =>
    right; right
    simp only [Nearer, Due, waits, false_implies, and_true]
    simp only [S.step, Option.some.injEq, Prod.mk.injEq] at h
    rw [← h.1]; exact ⟨hd, Nat.le_refl _⟩
  | run d =>
    right; right
    simp only [Nearer, Due, waits]
    simp only [S.step, S.runOp, S.deref] at h
    cases c <;> cases d <;> simp only [S.ch, S.set] at * <;> grind [n]
  | cleared d wr buf w =>
    simp only [S.step] at h
    by_cases hb : (if wr then (s.ch d).inClr else (s.ch d).outClr) = true
    · rw [if_pos hb] at h
      obtain ⟨hr, s1, hcl, heq⟩ := cleared_shape s d wr buf w hi hb
      rw [heq] at h
      obtain ⟨r1, r2, r3⟩ := hcl
      obtain ⟨t1, t2, t3, t4, t5, t6, t7⟩ := r3
      have rc := r1 c
      rcases clearedNext_eff _ _ _ _ _ _ t6 t7 h with ⟨g1, g2, -⟩ | ⟨⟨g1, g2, g3, g4, g5⟩, -⟩
      · right; right
        have gc := g1 c
        refine ⟨by rw [gc]; grind, ?_, ?_⟩
        · simp only [waits, gc, g2, t1]
          cases wr <;> by_cases hcd : c = d <;> simp [hcd] at rc <;> simp [rc, hcd] <;> omega
        · rintro ⟨hcd, -⟩
          subst hcd
          have : ∀ x : Option Nat, x ≠ none → n x.isSome = 1 := by intro x; cases x <;> simp
          cases wr <;> simp at hr rc <;> have := this _ hr <;> simp [waits, gc, g2, t1, rc] <;> omega
      · have gc := g1 c
        by_cases hcd : c = d
        · subst hcd
          have hd1 : (s1.ch c).cdone = true := by rw [rc.2.2.2.1]; exact hd
          rcases g5 hd1 with g6 | ⟨g6, g7, g8⟩
          · exact .inl g6
          · right; right
            have hlt : waits s' c < waits s c := by
              cases wr <;> simp at rc <;> simp [waits, gc, g8, t1, rc] <;> omega
            exact ⟨g6, by omega, fun _ => hlt⟩
        · right; right
          refine ⟨by rw [g2 c hcd, rc.2.2.2.1]; exact hd, ?_, ?_⟩
          · simp [hcd] at rc
            simp only [waits, gc, rc]; omega
          · rintro ⟨h, -⟩; exact absurd h.symm hcd
    · rw [if_neg hb] at h
      right; right
      simp only [Option.some.injEq, Prod.mk.injEq] at h
      rw [← h.1]
      refine ⟨hd, Nat.le_refl _, ?_⟩
      rintro ⟨h1, h2⟩
      subst h1; exact absurd h2 hb
  | timeout buf w =>
    simp only [S.step] at h
    split at h
    · rename_i ht
      obtain ⟨d, hcl, -⟩ := timeout_mid s hi ht
      obtain ⟨⟨g1, g2, g3, g4, g5⟩, -⟩ := check_eff _ _ .io d (by simp [hcl]) _ _ _ h
      have gc := g1 c
      have same : S.ch { s with timer := false } c = s.ch c := by cases c <;> rfl
      by_cases hcd : c = d
      · subst hcd
        rcases g5 (by rw [same]; exact hd) with g6 | ⟨g6, g7, g8⟩
        · exact .inl g6
        · right; right
          simp only at g7 g8
          have hlt : waits s' c < waits s c := by
            simp only [waits, gc, same, g8]; omega
          exact ⟨g6, by omega, fun _ => hlt⟩
      · right; right
        refine ⟨by rw [g2 c hcd, same]; exact hd, ?_, ?_⟩
        · simp only at g4
          simp only [waits, gc, same]; omega
        · rintro ⟨-, h⟩
          rw [hcl] at h; injection h with h; exact absurd h.symm hcd
    · rename_i ht
      right; right
      simp only [Option.some.injEq, Prod.mk.injEq] at h
      rw [← h.1]
      refine ⟨hd, Nat.le_refl _, ?_⟩
      rintro ⟨h1, -⟩
      exact absurd h1 ht
  | cbRet d =>
    right; right
    simp only [Nearer, Due, waits, false_implies, and_true]
    simp only [S.step, S.cbRet, S.deref] at h
    cases c <;> cases d <;> simp only [S.ch, S.set] at * <;> grind

/-- **C209, partial**: a careful user closed a channel and waits for
`close_done`.  Then there is always a step of the system that the close waits
for; every such step leads to the report or brings it nearer, and nothing else
that the user or the system do, except for the free of the channel, moves it
away.  At most 1003 of these steps are needed.  Partial: the careful user. -/
theorem C209_goes_partial (es : List Ev) (hc : CarefulRun init es) (s : S) (os : List Out)
    (hr : init.run es = some (s, os)) (c : C) (hd : (s.ch c).cdone = true) :
    (∃ e, Due s c e) ∧ waits s c ≤ 1003 ∧
      ∀ e s' os', Careful s e → s.step e = some (s', os') →
        Out.closed c ∈ os' ∨ e = .free c ∨ Nearer s s' c e := by
  obtain ⟨s0, os0, h0, hi⟩ := run_inv es init inv_init hc
  rw [hr] at h0
  simp only [Option.some.injEq, Prod.mk.injEq] at h0
  obtain ⟨h1, -⟩ := h0
  subst h1
  refine ⟨?_, ?_, fun e s' os' hce hst => step_nearer s s' c e os' hi hce hd hst⟩
  · have key : (s.ch c).defClose = true ∨ (s.ch c).inReg ≠ none ∨ (s.ch c).outReg ≠ none ∨
        (s.timer = true ∧ s.closing = some c) := by
      cases c
      · exact hi.goIo (hi.core.io.cd hd) (hi.core.io.cdH hd) (.inl hd)
      · exact hi.goErr (hi.core.er.cd hd) (hi.core.er.cdH hd) (.inl hd)
    have hch : ChInv (s.ch c) := by
      cases c
      · exact hi.core.io
      · exact hi.core.er
    by_cases hdf : (s.ch c).defClose = true
    · exact ⟨.run c, rfl, (hch.dc hdf).2.2, hdf⟩
    · have hdf' : (s.ch c).defClose = false := by simpa using hdf
      have hcl := hch.clr (hch.cd hd) hdf'
      rcases key with h | h | h | h
      · exact absurd h hdf
      · exact ⟨.cleared c true false {}, rfl, by simpa using hcl.1 h⟩
      · exact ⟨.cleared c false false {}, rfl, by simpa using hcl.2 h⟩
      · exact ⟨.timeout false {}, h⟩
  · have : ∀ b, n b ≤ 1 := by intro b; cases b <;> simp
    have h1 := this (s.ch c).defClose
    have h2 := this (s.ch c).inReg.isSome
    have h3 := this (s.ch c).outReg.isSome
    simp only [waits, NUM_WAIT_RETRIES]
    omega

/-! ### The exit code -/

/-- The user does not wait for the program, and the system answers with the
status of the program or that it runs. -/
def Plain : Ev → Prop
  | .waitTask _ => False
  | .cleared _ _ _ w => w.rv = 0 ∨ w.rv = GE_INPROGRESS
  | .timeout _ w => w.rv = 0 ∨ w.rv = GE_INPROGRESS
  | _ => True

/-- What holds of the exit code after `os` was seen. -/
structure Code (s : S) (os : List Out) : Prop where
  one : s.nextPid ≤ 1
  zero : s.nextPid = 0 → s.codeSet = false
  runs : ∀ p, s.opid = some p → p = 0 ∧ s.nextPid = 1 ∧ s.codeSet = false
  ended : s.nextPid = 1 → s.opid = none → s.codeSet = true ∧ Out.waited 0 s.code ∈ os
  waits : s.nextPid = 1 → s.io.inReg = none → s.io.outReg = none → s.err.outReg = none →
    s.timer = true ∨ s.opid = none ∨ NUM_WAIT_RETRIES ≤ s.retries

/-- A step that leaves the program and the handlers alone. -/
theorem code_same (s s' : S) (os o : List Out) (hk : Code s os) (h1 : s'.nextPid = s.nextPid) (h2 : SameCode s s')
    (h3 : s'.timer = s.timer) (h4 : s'.retries = s.retries)
    (h5 : s'.io.inReg = none → s'.io.outReg = none → s'.err.outReg = none →
      s.io.inReg = none ∧ s.io.outReg = none ∧ s.err.outReg = none) : Code s' (os ++ o) := by
  obtain ⟨k1, k2, k3, k4, k5⟩ := hk
  obtain ⟨g1, g2, g3⟩ := h2
  refine ⟨by omega, ?_, ?_, ?_, ?_⟩
  · rw [h1, g3]; exact k2
  · rw [h1, g1, g3]; exact k3
  · rw [h1, g1, g2, g3]; intro h h'; have := k4 h h'; exact ⟨this.1, List.mem_append_left _ this.2⟩
  · rw [h1, g1, h3, h4]; intro h r1 r2 r3
    obtain ⟨x1, x2, x3⟩ := h5 r1 r2 r3
    exact k5 h x1 x2 x3

theorem code_eff (s s' : S) (os o : List Out) (w : W) (hk : Code s os) (hp : s'.nextPid = s.nextPid)
    (hw : w.rv = 0 ∨ w.rv = GE_INPROGRESS) (he : CodeEff s s' w o)
    (hr : s'.io.inReg = none → s'.io.outReg = none → s'.err.outReg = none →
      s.io.outH = false ∧ s.io.inH = false ∧ s.err.outH = false) : Code s' (os ++ o) := by
  obtain ⟨k1, k2, k3, k4, k5⟩ := hk
  obtain ⟨e1, e2⟩ := he
  have last : s'.nextPid = 1 → s'.io.inReg = none → s'.io.outReg = none → s'.err.outReg = none →
      s'.timer = true ∨ s'.opid = none ∨ NUM_WAIT_RETRIES ≤ s'.retries := by
    intro _ r1 r2 r3
    obtain ⟨x1, x2, x3⟩ := hr r1 r2 r3
    rcases e2 x1 x2 x3 with h | h | h
    · exact .inr (.inl h)
    · exact .inl h
    · exact .inr (.inr h)
  rcases e1 with ⟨g1, g2, g3⟩ | ⟨p, p1, p2, p3, p4, p5⟩
  · refine ⟨by omega, ?_, ?_, ?_, last⟩
    · rw [hp, g3]; exact k2
    · rw [hp, g1, g3]; exact k3
    · rw [hp, g1, g2, g3]; intro h h'; have := k4 h h'; exact ⟨this.1, List.mem_append_left _ this.2⟩
  · obtain ⟨q1, q2, q3⟩ := k3 p p1
    subst q1
    have hw0 : w.rv = 0 := by
      rcases hw with h | h
      · exact h
      · exact absurd h p5
    obtain ⟨x1, x2⟩ := p4 hw0
    refine ⟨by omega, by omega, ?_, ?_, last⟩
    · intro p hp'; rw [p2] at hp'; simp at hp'
    · intro _ _; refine ⟨p3, ?_⟩; rw [x1]; exact List.mem_append_right _ x2

theorem step_code (s s' : S) (e : Ev) (os o : List Out) (hi : Inv s) (hc : Careful s e) (hp : Plain e)
    (hk : Code s os) (h : s.step e = some (s', o)) : Code s' (os ++ o) := by
  cases e with
  | «open» d x =>
    cases d
    · have hpid := hi.core.pid hc.2.2
      have hcs := hk.zero hc.2.2
      have hn : s.nextPid = 0 := hc.2.2
      have hsh := hi.core.io.shut hpid.2.2.2.2.2.1 hpid.2.2.2.2.2.2.1
      simp only [S.step, S.openCall, S.ch, hpid.2.2.2.2.2.1, hpid.2.2.2.2.2.2.1] at h
      by_cases hx : x = 0
      · subst hx
        simp [S.openHandlers, S.startOp, S.set, S.ch, hsh.2.2] at h
        obtain ⟨h1, -⟩ := h
        subst h1
        exact ⟨by simp [hn], by simp, by simp [hn, hcs], by simp, by simp⟩
      · simp [hx] at h
        obtain ⟨-, h, -⟩ := h
        subst h
        refine code_same s _ os o hk rfl ⟨rfl, rfl, rfl⟩ rfl rfl ?_
        have hsh2 := hi.core.er.shut hpid.2.2.2.2.2.2.2.2.1 hpid.2.2.2.2.2.2.2.2.2.1
        intro _ _ _; exact ⟨hsh.1, hsh.2.1, hsh2.2.1⟩
    · have hx : x = 0 := hc.2.2.2
      subst hx
      simp only [S.step, S.openCall, S.ch] at h
      split at h
      · simp only [Option.some.injEq, Prod.mk.injEq] at h
        rw [← h.1]
        exact code_same s s os o hk rfl ⟨rfl, rfl, rfl⟩ rfl rfl (fun a b c => ⟨a, b, c⟩)
      · simp only [ne_eq, not_true_eq_false, if_false, S.openHandlers, S.ch, S.set, S.startOp] at h
        have hcc := hc.2.2.1
        refine code_same s s' os o hk ?_ ⟨?_, ?_, ?_⟩ ?_ ?_ ?_ <;> grind
  | close d b =>
    simp only [S.step, S.closeCall, S.iClose, S.startOp] at h
    cases d <;> simp only [S.ch, S.set] at * <;> refine code_same s s' os o hk ?_ ⟨?_, ?_, ?_⟩ ?_ ?_ ?_ <;> grind
  | free d =>
    simp only [S.step, S.freeCall, S.iClose, S.startOp] at h
    cases d <;> simp only [S.ch, S.set] at * <;> refine code_same s s' os o hk ?_ ⟨?_, ?_, ?_⟩ ?_ ?_ ?_ <;> grind
  | freeEnd d =>
    simp only [S.step, S.freeEnd, S.deref] at h
    cases d <;> simp only [S.ch, S.set] at * <;> refine code_same s s' os o hk ?_ ⟨?_, ?_, ?_⟩ ?_ ?_ ?_ <;> grind
  | alloc =>
    simp only [S.step, S.alloc] at h
    refine code_same s s' os o hk ?_ ⟨?_, ?_, ?_⟩ ?_ ?_ ?_ <;> grind
  | waitTask w => exact absurd hp id
  | exitCode =>
    simp only [S.step, Option.some.injEq, Prod.mk.injEq] at h
    rw [← h.1]
    exact code_same s s os o hk rfl ⟨rfl, rfl, rfl⟩ rfl rfl (fun a b c => ⟨a, b, c⟩)
  | run d =>
    simp only [S.step, S.runOp, S.deref] at h
    cases d <;> simp only [S.ch, S.set] at * <;> refine code_same s s' os o hk ?_ ⟨?_, ?_, ?_⟩ ?_ ?_ ?_ <;> grind
  | cbRet d =>
    simp only [S.step, S.cbRet, S.deref] at h
    cases d <;> simp only [S.ch, S.set] at * <;> refine code_same s s' os o hk ?_ ⟨?_, ?_, ?_⟩ ?_ ?_ ?_ <;> grind
  | cleared d wr buf w =>
    simp only [S.step] at h
    by_cases hb : (if wr then (s.ch d).inClr else (s.ch d).outClr) = true
    · rw [if_pos hb] at h
      obtain ⟨hr, s1, hcl, heq⟩ := cleared_shape s d wr buf w hi hb
      rw [heq] at h
      obtain ⟨r1, r2, t1, t2, t3, t4, t5, t6, t7⟩ := hcl
      have hne : ∀ x : Option Nat, x.isSome = true → x ≠ none := by intro x; cases x <;> simp
      have hnf : ∀ x : Option Nat, x = none → x.isSome = false := by intro x h; rw [h]; rfl
      rcases clearedNext_eff _ _ _ _ _ _ t6 t7 h with ⟨g1, g2, g3, ⟨g4, g5, g6⟩, g7⟩ | ⟨⟨g1, g2, g3, g4, g5⟩, g6⟩
      · -- a handler of the channel is left
        obtain ⟨k1, k2, k3, k4, k5⟩ := hk
        refine ⟨by omega, ?_, ?_, ?_, ?_⟩
        · rw [g3, t2, g6, t5]; exact k2
        · rw [g3, t2, g4, t3, g6, t5]; exact k3
        · rw [g3, t2, g4, t3, g6, t5, g5, t4]; intro h h'; have := k4 h h'
          exact ⟨this.1, List.mem_append_left _ this.2⟩
        · intro _ x1 x2 x3
          exfalso
          have e1 := g1 .io
          have e2 := g1 .err
          simp only [S.ch] at e1 e2
          have f1 := r2 d
          rw [f1.1, f1.2] at g7
          have herr : (s1.ch .err).inReg = none := by
            rw [(r1 .err).1]; split
            · rfl
            · exact hi.core.noIn.2
          cases d
          · rcases g7 with g7 | g7
            · exact hne _ g7 (by rw [← x1, e1]; rfl)
            · exact hne _ g7 (by rw [← x2, e1]; rfl)
          · rcases g7 with g7 | g7
            · exact hne _ g7 herr
            · exact hne _ g7 (by rw [← x3, e2]; rfl)
      · have hw : w.rv = 0 ∨ w.rv = GE_INPROGRESS := hp
        have hlast : s'.io.inReg = none → s'.io.outReg = none → s'.err.outReg = none →
            s1.io.outH = false ∧ s1.io.inH = false ∧ s1.err.outH = false := by
          intro x1 x2 x3
          have e1 := g1 .io
          have e2 := g1 .err
          have f1 := r2 .io
          have f2 := r2 .err
          simp only [S.ch] at e1 e2 f1 f2
          refine ⟨?_, ?_, ?_⟩
          · rw [f1.2]; exact hnf _ (by rw [← e1.2.1, x2])
          · rw [f1.1]; exact hnf _ (by rw [← e1.1, x1])
          · rw [f2.2]; exact hnf _ (by rw [← e2.2.1, x3])
        -- the state before, with the program of `s`
        have : Code { s1 with timer := true } os := by
          obtain ⟨k1, k2, k3, k4, k5⟩ := hk
          refine ⟨by simp only; omega, ?_, ?_, ?_, fun _ _ _ _ => .inl rfl⟩
          · simp only [t2, t5]; exact k2
          · simp only [t2, t3, t5]; exact k3
          · simp only [t2, t3, t4, t5]; exact k4
        exact code_eff { s1 with timer := true } s' os o w this g3 hw g6 hlast
    · rw [if_neg hb] at h
      simp only [Option.some.injEq, Prod.mk.injEq] at h
      rw [← h.1]
      exact code_same s s os o hk rfl ⟨rfl, rfl, rfl⟩ rfl rfl (fun a b c => ⟨a, b, c⟩)
  | timeout buf w =>
    simp only [S.step] at h
    split at h
    · rename_i ht
      obtain ⟨d, hcl, hm⟩ := timeout_mid s hi ht
      obtain ⟨⟨g1, g2, g3, g4, g5⟩, g6⟩ := check_eff _ _ .io d (by simp [hcl]) _ _ _ h
      have hnf : ∀ x : Option Nat, x = none → x.isSome = false := by intro x h; rw [h]; rfl
      refine code_eff s s' os o w hk g3 hp g6 ?_
      intro x1 x2 x3
      have e1 := g1 .io
      have e2 := g1 .err
      simp only [S.ch] at e1 e2
      refine ⟨?_, ?_, ?_⟩
      · rw [hi.core.io.outH]; exact hnf _ (by rw [← e1.2.1, x2])
      · rw [hi.core.io.inH]; exact hnf _ (by rw [← e1.1, x1])
      · rw [hi.core.er.outH]; exact hnf _ (by rw [← e2.2.1, x3])
    · simp only [Option.some.injEq, Prod.mk.injEq] at h
      rw [← h.1]
      exact code_same s s os o hk rfl ⟨rfl, rfl, rfl⟩ rfl rfl (fun a b c => ⟨a, b, c⟩)

theorem run_code (es : List Ev) (s s' : S) (os o : List Out) (hi : Inv s) (hc : CarefulRun s es)
    (hp : ∀ e ∈ es, Plain e) (hk : Code s os) (h : s.run es = some (s', o)) : Code s' (os ++ o) := by
  induction es generalizing s os o with
  | nil =>
    simp only [S.run, Option.some.injEq, Prod.mk.injEq] at h
    rw [← h.1, ← h.2, List.append_nil]; exact hk
  | cons e es ih =>
    simp only [S.run] at h
    split at h
    · simp at h
    · rename_i s1 o1 hs
      split at h
      · simp at h
      · rename_i s2 o2 hr
        simp only [Option.some.injEq, Prod.mk.injEq] at h
        obtain ⟨h1, h2⟩ := h
        subst h1; subst h2
        have := ih s1 (os ++ o1) o2 ((step_both s e hi hc.1).2 _ _ hs) (hc.2 _ _ hs)
          (fun e he => hp e (List.mem_cons_of_mem _ he))
          (step_code s s1 e os o1 hi hc.1 (hp e (List.mem_cons_self ..)) hk hs) hr
        rw [← List.append_assoc]; exact this

/-- **C210, partial**: for a careful user who does not wait for the program and
a system that does not fail to wait: an exit code that is given is the status
that the system gave for the program; and when both channels are closed after a
program was started, the exit code is given, or the 1000 tries are used up.
Partial: the careful user, no `GENSIO_CONTROL_WAIT_TASK`, and the system. -/
theorem C210_code_partial (es : List Ev) (hc : CarefulRun init es) (hp : ∀ e ∈ es, Plain e) (s : S) (os : List Out)
    (hr : init.run es = some (s, os)) :
    (∀ k, Out.code k ∈ s.exitCode → Out.waited 0 k ∈ os) ∧
    (s.nextPid ≠ 0 → s.io.closed = true → s.io.inClose = false → s.err.closed = true → s.err.inClose = false →
      s.retries < 1000 → ∃ k, s.exitCode = [.code k] ∧ Out.waited 0 k ∈ os) := by
  obtain ⟨s0, os0, h0, hi⟩ := run_inv es init inv_init hc
  rw [hr] at h0
  simp only [Option.some.injEq, Prod.mk.injEq] at h0
  obtain ⟨h1, -⟩ := h0
  subst h1
  have hk0 : Code init [] := ⟨by simp [init], by simp [init], by simp [init], by simp [init], by simp [init]⟩
  have hk := run_code es init s [] os inv_init hc hp hk0 hr
  rw [List.nil_append] at hk
  have hone : s.codeSet = true → s.nextPid = 1 ∧ s.opid = none := by
    intro h
    have : s.nextPid ≠ 0 := by intro h0; rw [hk.zero h0] at h; simp at h
    have h1 := hk.one
    refine ⟨by omega, ?_⟩
    cases ho : s.opid with
    | none => rfl
    | some p => have := (hk.runs p ho).2.2; rw [this] at h; simp at h
  refine ⟨?_, ?_⟩
  · intro k h
    simp only [S.exitCode] at h
    split at h
    · rename_i hcs
      simp only [List.mem_singleton, Out.code.injEq] at h
      subst h
      exact (hk.ended (hone hcs).1 (hone hcs).2).2
    · simp at h
  · intro h1 h2 h3 h4 h5 h7
    have h6 : s.timer = false := by
      cases ht : s.timer with
      | false => rfl
      | true =>
        obtain ⟨d, hd⟩ := Option.ne_none_iff_exists'.mp (hi.tm ht)
        cases d
        · have := (hi.clIo ht hd).1; rw [h3] at this; simp at this
        · have := (hi.clErr ht hd).1; rw [h5] at this; simp at this
    have hn : s.nextPid = 1 := by have := hk.one; omega
    have g1 := hi.core.io.shut h2 h3
    have g2 := hi.core.er.shut h4 h5
    have ho : s.opid = none := by
      rcases hk.waits hn g1.1 g1.2.1 g2.2.1 with h | h | h
      · rw [h6] at h; simp at h
      · exact h
      · simp only [NUM_WAIT_RETRIES] at h; omega
    have := hk.ended hn ho
    exact ⟨s.code, by simp [S.exitCode, this.1], this.2⟩

/-- In the usual session both hold of the status 3. -/
example : (∀ e ∈ session, Plain e) ∧
    ((init.run session).map fun r => (r.1.exitCode, r.1.io.closed, r.1.io.inClose, r.1.nextPid, decide (Out.waited 0 3 ∈ r.2))) =
      some ([.code 3], true, false, 1, true) := by
  refine ⟨by simp [session, Plain, busy], by decide +kernel⟩

end Gensio.StdioLife
