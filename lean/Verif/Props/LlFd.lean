import Verif.Lemmas.LlFdMain

/-!
# C84-C87: the descriptor layer `lib/ll_fd.c`

`Fair c s` is a state `s` that is reached by any number of threads, with any results of the system and of the callbacks, as
long as the rules of `fair` are kept.  The theorems are about all these states.  For each rule there is a run that breaks only
this rule and goes wrong (`..._violated`); the runs are of the code as it is, so these are errors of the code, or rules that
its users must know.
-/

namespace Gensio.LlFd

/-- Nothing runs and nothing is scheduled: only the system can report an event on a descriptor. -/
def rest (s : St) : Prop :=
  s.th = [] ∧ s.runQ = false ∧ s.tmRun = false ∧ ∀ i, (s.iods i).reg ≠ .clearing

/-- Nothing runs or is scheduled, and no handler is armed on any descriptor: without a call of the user nothing will happen. -/
def stuck (s : St) : Bool := s.th.isEmpty && !s.runQ && !s.tmRun &&
  (List.range s.nIod).all (fun i => (s.iods i).reg ≠ .clearing &&
    ((s.iods i).reg ≠ .active || (!(s.iods i).rd && !(s.iods i).wr && !(s.iods i).ex)))

/-! ## Tools -/

private theorem tot_rd : ∀ l : List Th, (tot l).rd = l.countP (fun t => t.pc.rd)
  | [] => rfl
  | t :: l => by
    simp only [tot, X.add, xOf, List.countP_cons, tot_rd l]
    cases t.pc.rd <;> simp <;> omega

private theorem tot_wr : ∀ l : List Th, (tot l).wr = l.countP (fun t => t.pc.wr)
  | [] => rfl
  | t :: l => by
    simp only [tot, X.add, xOf, List.countP_cons, tot_wr l]
    cases t.pc.wr <;> simp <;> omega

private theorem inv_core {c : Cfg} {s : St} (h : Fair c s) : Core (tot s.th) (cur s) s := by
  have := h.inv.core
  rwa [x0_add] at this

private theorem rest_core {c : Cfg} {s : St} (h : Fair c s) (r : rest s) : Core {} (cur s) s := by
  have := inv_core h
  rwa [r.1] at this

private theorem rest_facts {c : Cfg} {s : St} (h : Fair c s) (r : rest s) :
    s.defPend = false ∧ s.dOpen = false ∧ s.dClose = false ∧ s.dRead = false ∧ s.tm = .stopped := by
  have k := rest_core h r
  have dp : s.defPend = false := by
    have := k.run
    rw [r.2.1] at this
    cases e : s.defPend with
    | false => rfl
    | true => simp [e] at this
  refine ⟨dp, ?_, ?_, ?_, ?_⟩
  · cases e : s.dOpen with
    | false => rfl
    | true => have := (k.dOp e).1; rw [dp] at this; cases this
  · cases e : s.dClose with
    | false => rfl
    | true => have := (k.dCl e).1; rw [dp] at this; cases this
  · cases e : s.dRead with
    | false => rfl
    | true => have := (k.dRd e).1; rw [dp] at this; cases this
  · have := k.tmr
    rw [r.2.2.1] at this
    cases e : s.tm <;> simp [e] at this
    rfl

/-- At rest the descriptor is registered. -/
private theorem rest_reg {c : Cfg} {s : St} {i : Nat} (h : Fair c s) (r : rest s) (hi : s.iod = some i) :
    (s.iods i).reg = .active := by
  have k := rest_core h r
  have ⟨_, _, _, _, tm⟩ := rest_facts h r
  have hc : cur s = s.iods i := cur_some hi
  rw [hc] at k
  cases e : (s.iods i).reg with
  | active => rfl
  | none_ => exact absurd e (k.pSome (by simp [hi]))
  | clearing => exact absurd e (r.2.2.2 i)
  | cleared =>
    rcases k.pCld (by simp [hi]) e with ⟨h1, _⟩ | ⟨_, _, _, h1⟩
    · simp at h1
    · simp [tm] at h1

/-! ## C84: each accepted open and each accepted close is reported once -/

/-- No step of a fair run fails an assertion or uses released memory, a closed descriptor or a NULL pointer. -/
theorem C84_safe_partial (c : Cfg) (s : St) (a : Act) (h : Fair c s) (hc : can s a = true) (hf : fair s a = true) :
    (exec c s a).isSome = true := by
  obtain ⟨s', e, _⟩ := exec_ok (c := c) h.inv hc hf
  simp [e]

/-- An open or close with a given number is accepted at most once and reported at most as often as accepted; only the last one
may be not yet reported, and then it is outstanding by the history. -/
theorem C84_once_partial (c : Cfg) (s : St) (h : Fair c s) (n : Nat) :
    (s.ev.countP (isOpenDone n) ≤ s.ev.countP (isOpenAcc n) ∧ s.ev.countP (isOpenAcc n) ≤ 1 ∧
      (s.ev.countP (isOpenDone n) ≠ s.ev.countP (isOpenAcc n) → opening s.ev = true ∧ s.nOpen = n + 1)) ∧
    (s.ev.countP (isCloseDone n) ≤ s.ev.countP (isCloseAcc n) ∧ s.ev.countP (isCloseAcc n) ≤ 1 ∧
      (s.ev.countP (isCloseDone n) ≠ s.ev.countP (isCloseAcc n) → closing s.ev = true ∧ s.nClose = n + 1)) := by
  have k := h.inv.hist
  have a1 := k.opens n; have a2 := k.openLt n; have a3 := k.closes n; have a4 := k.closeLt n
  have b1 : b2n (decide (n < s.nOpen)) ≤ 1 := by cases decide (n < s.nOpen) <;> simp
  have b2 : b2n (decide (n < s.nClose)) ≤ 1 := by cases decide (n < s.nClose) <;> simp
  refine ⟨⟨by omega, by omega, fun ne => ?_⟩, by omega, by omega, fun ne => ?_⟩
  · cases e : (opening s.ev && (s.nOpen == n + 1)) with
    | true => simpa using e
    | false => rw [e] at a1; simp at a1; omega
  · cases e : (closing s.ev && (s.nClose == n + 1)) with
    | true => simpa using e
    | false => rw [e] at a3; simp at a3; omega

/-- The order of the callbacks: see `ordered`. -/
theorem C84_order_partial (c : Cfg) (s : St) (h : Fair c s) : ordered s.ev := h.inv.hist.ord

/-- When nothing runs and nothing is scheduled, no close is outstanding, and an open is outstanding only when the layer waits
for the descriptor with the write handler armed. -/
theorem C84_rest_partial (c : Cfg) (s : St) (h : Fair c s) (r : rest s) :
    closing s.ev = false ∧
    (opening s.ev = true → s.st = .inOpen ∧ ∃ i, s.iod = some i ∧ (s.iods i).reg = .active ∧ (s.iods i).wr = true) := by
  have k := rest_core h r
  have ⟨_, d1, d2, _, _⟩ := rest_facts h r
  constructor
  · rw [k.cls]
    cases e : s.closeDone.isSome with
    | false => rfl
    | true =>
      obtain ⟨_, h1, h2⟩ := k.clr e
      simp only [d2, Bool.false_eq_true, or_false] at h2
      obtain ⟨i, hi⟩ := Option.isSome_iff_exists.1 h2
      have hr := rest_reg h r hi
      have hc : cur s = s.iods i := cur_some hi
      rw [hc] at k
      have := (k.pAct (by simp [hi]) hr).1
      rcases h1 with h1 | h1 <;> simp [h1] at this
  · intro o
    rw [k.op] at o
    simp only [opn, d1, Bool.or_false, Bool.or_eq_true, decide_eq_true_eq] at o
    have hi : s.iod.isSome = true := by
      cases e : s.iod.isSome with
      | true => rfl
      | false =>
        have := (k.pNone e).2
        simp only [d1, d2] at this
        simp at this
        simp [this] at o
    obtain ⟨i, hi⟩ := Option.isSome_iff_exists.1 hi
    have hr := rest_reg h r hi
    have hc : cur s = s.iods i := cur_some hi
    rw [hc] at k
    have p := (k.pAct (by simp [hi]) hr).1
    have st : s.st = .inOpen := by
      rcases o with (o | o) | o
      · exact o
      · simp [o] at p
      · simp [o] at p
    exact ⟨st, i, hi, hr, k.armO st⟩

/-! ## C85: references and descriptors -/

/-- The structure is released only when nothing refers to it any more: it was given up by the user, no thread, runner or timer
is left, and all descriptors are closed. -/
theorem C85_dead_partial (c : Cfg) (s : St) (h : Fair c s) (d : s.dead = true) :
    s.freed = true ∧ s.th = [] ∧ s.runQ = false ∧ s.tmRun = false ∧ s.iod = none ∧ (∀ j, j < s.nIod → (s.iods j).isClosed = true) ∧
    opening s.ev = false ∧ closing s.ev = false := by
  have k := inv_core h
  have rz : s.ref = 0 := by have := k.dead; rw [d] at this; simpa using this.symm
  have rc := k.refc
  rw [rz] at rc
  have f1 : s.freed = true := by
    cases e : s.freed with
    | true => rfl
    | false => simp [e] at rc; omega
  have f2 : s.iod = none := by
    cases e : s.iod with
    | none => rfl
    | some i => simp [e] at rc; omega
  have f3 : s.dClose = false := by
    cases e : s.dClose with
    | false => rfl
    | true => simp [e] at rc; omega
  have f4 : s.defPend = false := by
    cases e : s.defPend with
    | false => rfl
    | true => simp [e] at rc; omega
  have f5 : b2n (decide (s.tm ≠ .stopped)) = 0 := by omega
  have r1 := k.run; have r2 := k.tmr
  rw [f4] at r1; rw [f5] at r2
  simp only [b2n_false] at r1
  have q1 : s.runQ = false := by
    cases e : s.runQ with
    | false => rfl
    | true => simp [e] at r1
  have q2 : s.tmRun = false := by
    cases e : s.tmRun with
    | false => rfl
    | true => simp [e] at r2
  have pn := k.pNone (by simp [f2])
  simp only [f3] at pn
  simp at pn
  have th : s.th = [] := by
    cases e : s.th with
    | nil => rfl
    | cons t l =>
      have ok := (h.inv.lst t (by rw [e]; exact List.mem_cons_self)).1
      have hr := k.hreg
      rw [e] at rc r1 r2 pn hr
      simp only [tot, X.add, xOf] at rc r1 r2 pn hr
      have nh : b2n t.h.isSome = 0 := by
        refine Nat.eq_zero_of_not_pos fun p => ?_
        have := (hr (by omega)).1
        simp [f2] at this
      have hn : t.h = none := by
        cases e : t.h with
        | none => rfl
        | some i => simp [e] at nh
      obtain ⟨pc, hd⟩ := t
      subst hn
      exfalso
      cases pc with
      | opCb e k =>
        rcases ok with rfl | rfl
        · simp [Pc.ref] at rc; omega
        · simp [Pc.run] at r1
      | _ => revert rc r1 r2 pn ok; simp [Th.ok, Pc.ref, Pc.run, Pc.tm, Pc.cl, Pc.cc] <;> omega
  refine ⟨f1, th, q1, q2, f2, fun j hj => h.inv.desc.leak j hj (by simp [f2]), ?_, ?_⟩
  · rw [k.op]; simp [opn, pn]
  · rw [k.cls]
    cases e : s.closeDone.isSome with
    | false => rfl
    | true => have := (k.clr e).2.2; simp [f2, f3] at this

/-- When the user has given it up and nothing runs and nothing is scheduled, it is released. -/
theorem C85_freed_partial (c : Cfg) (s : St) (h : Fair c s) (r : rest s) (f : s.freed = true) : s.dead = true := by
  have k := rest_core h r
  have ⟨d0, d1, d2, _, d4⟩ := rest_facts h r
  have hi : s.iod = none := by
    cases e : s.iod with
    | none => rfl
    | some i =>
      have hr := rest_reg h r e
      have hc : cur s = s.iods i := cur_some e
      rw [hc] at k
      have p := (k.pAct (by simp [e]) hr).1
      rcases k.frC f with q | q <;> simp [q] at p
  have rc := k.refc
  simp [f, hi, d0, d2, d4] at rc
  have := k.dead
  simp [rc] at this
  exact this

/-- All descriptors are closed but the one in use, which is not; no handlers are registered on the others.  When the layer is
closed and at rest there is none in use, so none leaks. -/
theorem C85_desc_partial (c : Cfg) (s : St) (h : Fair c s) :
    (∀ j, j < s.nIod → s.iod ≠ some j → (s.iods j).isClosed = true ∧ (s.iods j).reg ≠ .active ∧ (s.iods j).reg ≠ .clearing) ∧
    (∀ j, s.iod = some j → j < s.nIod ∧ (s.iods j).isClosed = false) ∧
    (rest s → s.st = .closed → s.iod = none) := by
  refine ⟨fun j h1 h2 => ⟨h.inv.desc.leak j h1 h2, h.inv.desc.oth j h2⟩, h.inv.desc.lt, fun r st => ?_⟩
  cases e : s.iod with
  | none => rfl
  | some i =>
    have := (rest_core h r).pseudo st (by simp [e])
    rw [(C84_rest_partial c s h r).1] at this; cases this

/-! ## C86: what is read is delivered, and callbacks do not overlap -/

/-- A thread is in `doread` or in the read callback. -/
def reads (t : Th) : Bool :=
  match t.pc with
  | .rdIO | .rdCb _ | .dfRd => true
  | _ => false

/-- A thread is in the write callback. -/
def writes (t : Th) : Bool :=
  match t.pc with
  | .wrCb _ _ => true
  | _ => false

/-- What was read from the descriptor since the open is what the read callback took, followed by what waits in the buffer. -/
theorem C86_data_partial (c : Cfg) (s : St) (h : Fair c s) : s.recvd = s.taken ++ s.buf := (inv_core h).data

/-- At most one thread reads or is in the read callback, and at most one is in the write callback. -/
theorem C86_excl_partial (c : Cfg) (s : St) (h : Fair c s) : s.th.countP reads ≤ 1 ∧ s.th.countP writes ≤ 1 := by
  have k := inv_core h
  have e1 : (fun t : Th => t.pc.rd) = reads := by funext t; cases t with | mk pc hd => cases pc <;> rfl
  have e2 : (fun t : Th => t.pc.wr) = writes := by funext t; cases t with | mk pc hd => cases pc <;> rfl
  rw [← e1, ← e2, ← tot_rd, ← tot_wr, k.rdc, k.wrc]
  constructor
  · cases s.inRd <;> simp
  · cases s.inWr <;> simp

/-- A handler of the read, write or except kind only runs on the descriptor in use, and while it runs the descriptor is not
closed and its cleared handler not called. -/
theorem C86_handler_partial (c : Cfg) (s : St) (h : Fair c s) (t : Th) (ht : t ∈ s.th) (i : Nat) (hi : t.h = some i) :
    s.iod = some i ∧ (s.iods i).isClosed = false ∧ ((s.iods i).reg = .active ∨ (s.iods i).reg = .clearing) := by
  have l := (h.inv.lst t ht).2
  have e : s.iod = some i := by
    rcases l with l | l
    · rw [l] at hi; cases hi
    · rw [← l]; exact hi
  refine ⟨e, (h.inv.desc.lt i e).2, ?_⟩
  have k := inv_core h
  have hc : cur s = s.iods i := cur_some e
  rw [hc] at k
  refine (k.hreg (Nat.pos_of_ne_zero fun z => ?_)).2
  have := nh_zero z t ht
  rw [hi] at this; cases this

/-! ## C87: enabled callbacks are armed -/

/-- When the layer is open and at rest, an enabled read callback has nothing in the buffer and its handler armed, and an
enabled write callback has its handler armed. -/
theorem C87_armed_partial (c : Cfg) (s : St) (h : Fair c s) (r : rest s) (o : s.st = .opened) :
    ∃ i, s.iod = some i ∧ (s.iods i).reg = .active ∧
      (s.rdEn = true → s.buf = [] ∧ (s.iods i).rd = true) ∧ (s.wrEn = true → (s.iods i).wr = true) := by
  have k := rest_core h r
  have ⟨d0, d1, d2, d3, d4⟩ := rest_facts h r
  have hi : s.iod.isSome = true := by
    cases e : s.iod.isSome with
    | true => rfl
    | false => have := (k.pNone e).2; simp [o] at this
  obtain ⟨i, hi⟩ := Option.isSome_iff_exists.1 hi
  have hc : cur s = s.iods i := cur_some hi
  rw [hc] at k
  have n1 : s.inRd = false := by
    cases e : s.inRd with
    | false => rfl
    | true => have := k.rdc; simp [e] at this
  have n2 : s.inWr = false := by
    cases e : s.inWr with
    | false => rfl
    | true => have := k.wrc; simp [e] at this
  refine ⟨i, hi, rest_reg h r hi, fun e => ?_, fun e => ?_⟩
  · have b : s.buf = [] := by
      refine Decidable.byContradiction fun nb => ?_
      have := k.armD o e n1 nb
      rw [d3] at this; cases this
    refine ⟨b, ?_⟩
    have := k.armR o e n1 b
    simpa [d0] using this
  · have := k.armW o e n2
    simpa [d0] using this

/-! ## Runs that go wrong -/

private theorem of_any {o : Option St} {p : St → Bool} (h : o.any p = true) : ∃ s, o = some s ∧ p s = true := by
  cases o with
  | none => simp at h
  | some s => exact ⟨s, rfl, by simpa using h⟩

/-- An open from the open callback that reports a failed open: the failed connection is closed, the layer is told that it is
closed, the second open is never reported and its descriptor is left without a handler.  The rule that no open is called from an
open callback is needed. -/
theorem C84_reopen_violated : ∃ l s, run {} (init true) l = some s ∧ stuck s = true ∧ opening s.ev = true ∧ s.st = .closed ∧
    s.iod = some 1 ∧ (s.iods 1).isClosed = false := by
  refine ⟨[.open_ .prog true, .fireWr 0, .go 0 { co := .res 5 }, .fireClr 0, .go 0 {}, .fireRun, .go 0 {},
    .open_ .prog true, .go 0 {}, .fireWr 1, .go 0 {}], ?_⟩
  obtain ⟨s, e, h⟩ := of_any (p := fun s => stuck s && opening s.ev && s.st = .closed && s.iod = some 1 && !(s.iods 1).isClosed)
    (o := run {} (init true) [.open_ .prog true, .fireWr 0, .go 0 { co := .res 5 }, .fireClr 0, .go 0 {}, .fireRun, .go 0 {},
    .open_ .prog true, .go 0 {}, .fireWr 1, .go 0 {}]) (by decide +kernel)
  exact ⟨s, e, by simpa [and_assoc] using h⟩

/-- A close during an open, when `check_close` needs time: the report of the open sets the state to closed, so the timer does
nothing, and the close is never reported and the descriptor never closed. -/
theorem C84_close_violated : ∃ l s, run {} (init true) l = some s ∧ stuck s = true ∧ closing s.ev = true ∧
    s.iod = some 0 ∧ (s.iods 0).isClosed = false := by
  refine ⟨[.open_ .prog true, .close, .fireRun, .go 0 {}, .go 0 {}, .fireClr 0, .go 0 { cc := true }, .fireTm, .go 0 {}], ?_⟩
  obtain ⟨s, e, h⟩ := of_any (p := fun s => stuck s && closing s.ev && s.iod = some 0 && !(s.iods 0).isClosed)
    (o := run {} (init true) [.open_ .prog true, .close, .fireRun, .go 0 {}, .go 0 {}, .fireClr 0, .go 0 { cc := true }, .fireTm,
      .go 0 {}]) (by decide +kernel)
  exact ⟨s, e, by simpa [and_assoc] using h⟩

/-- `retry_open` succeeds at once: no handlers are set and the open is never reported. -/
theorem C84_retry_violated : ∃ l s, run { retry := true } (init true) l = some s ∧ stuck s = true ∧ opening s.ev = true := by
  refine ⟨[.open_ .prog true, .fireWr 0, .go 0 { co := .res 5 }, .fireClr 0, .go 0 { ro := .done }], ?_⟩
  obtain ⟨s, e, h⟩ := of_any (p := fun s => stuck s && opening s.ev)
    (o := run { retry := true } (init true) [.open_ .prog true, .fireWr 0, .go 0 { co := .res 5 }, .fireClr 0,
      .go 0 { ro := .done }]) (by decide +kernel)
  exact ⟨s, e, by simpa [and_assoc] using h⟩

/-- Reading is enabled during an open, an exception comes, and the open is closed: the reading thread gets an error when the
open is reported and the layer is in the state closed, and the assertion at :530 fails. -/
theorem C84_assert_violated : ∃ l s a, run {} (init true) l = some s ∧ can s a = true ∧ exec {} s a = none := by
  obtain ⟨s, e, h⟩ := of_any (p := fun s => can s (.go 0 {}) && (exec {} s (.go 0 {})).isNone)
    (o := run {} (init true) [.open_ .prog true, .fireEx 0, .setRead true, .close, .fireRun, .go 0 {}, .go 0 {}, .go 0 {},
      .go 0 {}, .go 0 { err := 9 }]) (by decide +kernel)
  simp only [Bool.and_eq_true, Option.isNone_iff_eq_none] at h
  exact ⟨_, s, _, e, h⟩

/-- An open and a close while the close callback is running: the deferred work of the second close is asked for while
`deferred_op_pending` is still set, and the runner, when it goes on, does not look again.  The second close is never reported. -/
theorem C84_lost_violated : ∃ l s, run {} (init true) l = some s ∧ stuck s = true ∧ closing s.ev = true ∧ s.dClose = true := by
  refine ⟨[.open_ .done true, .close, .fireClr 0, .go 0 {}, .fireRun, .go 0 {}, .open_ .done true, .close, .fireClr 1, .go 0 {},
    .go 0 {}], ?_⟩
  obtain ⟨s, e, h⟩ := of_any (p := fun s => stuck s && closing s.ev && s.dClose)
    (o := run {} (init true) [.open_ .done true, .close, .fireClr 0, .go 0 {}, .fireRun, .go 0 {}, .open_ .done true, .close,
      .fireClr 1, .go 0 {}, .go 0 {}]) (by decide +kernel)
  exact ⟨s, e, by simpa [and_assoc] using h⟩

/-- Disabling the write callback during an open takes away the handler that waits for the connection: the open is never
reported. -/
theorem C84_disable_violated : ∃ s, run {} (init true) [.open_ .prog true, .setWrite false] = some s ∧ stuck s = true ∧
    opening s.ev = true := by
  obtain ⟨s, e, h⟩ := of_any (p := fun s => stuck s && opening s.ev)
    (o := run {} (init true) [.open_ .prog true, .setWrite false]) (by decide +kernel)
  exact ⟨s, e, by simpa [and_assoc] using h⟩

/-- An open while a close is outstanding, after the open that it broke off was reported: the new descriptor takes the place of
the one that is not closed yet. -/
theorem C85_leak_violated : ∃ l s, run {} (init true) l = some s ∧ s.iod = some 1 ∧ s.nIod = 2 ∧ (s.iods 0).isClosed = false := by
  refine ⟨[.open_ .prog true, .close, .fireRun, .go 0 {}, .go 0 {}, .open_ .done true], ?_⟩
  obtain ⟨s, e, h⟩ := of_any (p := fun s => s.iod = some 1 && s.nIod = 2 && !(s.iods 0).isClosed)
    (o := run {} (init true) [.open_ .prog true, .close, .fireRun, .go 0 {}, .go 0 {}, .open_ .done true]) (by decide +kernel)
  exact ⟨s, e, by simpa [and_assoc] using h⟩

/-- Releasing the layer while an open is not reported fails an assertion, :1050. -/
theorem C85_free_violated : ∃ s, run {} (init true) [.open_ .prog true] = some s ∧ can s .free = true ∧ exec {} s .free = none := by
  obtain ⟨s, e, h⟩ := of_any (p := fun s => can s .free && (exec {} s .free).isNone)
    (o := run {} (init true) [.open_ .prog true]) (by decide +kernel)
  simp only [Bool.and_eq_true, Option.isNone_iff_eq_none] at h
  exact ⟨s, e, h⟩

/-- An exception that is handled after both callbacks were disabled is kept in `deferred_except`, and the runner calls the
write callback for it.  Then a close does not wait for the callback, and when it returns the descriptor is gone: a NULL pointer
is used. -/
theorem C85_except_violated : ∃ l s a, run {} (init true) l = some s ∧ can s a = true ∧ exec {} s a = none := by
  obtain ⟨s, e, h⟩ := of_any (p := fun s => can s (.go 0 {}) && (exec {} s (.go 0 {})).isNone)
    (o := run {} (init true) [.open_ .done true, .setRead true, .fireRd 0, .fireEx 0, .go 1 {}, .go 0 { data := [1] }, .setRead false,
      .go 0 { cnt := 0 }, .go 0 {}, .setWrite true, .setRead true, .fireRun, .go 0 {}, .close, .fireClr 0, .go 0 {}])
    (by decide +kernel)
  simp only [Bool.and_eq_true, Option.isNone_iff_eq_none] at h
  exact ⟨_, s, _, e, h⟩

/-- Out of band data that is found after an open was closed, but before it is reported, is delivered before the report. -/
theorem C84_oob_violated : ∃ l s, run { exOp := true } (init true) l = some s ∧ ¬ ordered s.ev := by
  obtain ⟨s, e, h⟩ := of_any (p := fun s => s.ev = [.read 0 [1], .closeAcc 0, .openAcc 0])
    (o := run { exOp := true } (init true) [.open_ .prog true, .fireEx 0, .close, .go 0 {}, .go 0 { oob := true }, .go 0 {},
      .go 0 { data := [1] }]) (by decide +kernel)
  simp only [decide_eq_true_eq] at h
  exact ⟨_, s, e, by rw [h]; simp [ordered, opening]⟩

/-- A read callback that is enabled before an open that succeeds at once is never armed. -/
theorem C87_open_violated : ∃ s, run {} (init true) [.setRead true, .open_ .done true] = some s ∧ stuck s = true ∧ s.st = .opened ∧
    s.rdEn = true := by
  obtain ⟨s, e, h⟩ := of_any (p := fun s => stuck s && s.st = .opened && s.rdEn)
    (o := run {} (init true) [.setRead true, .open_ .done true]) (by decide +kernel)
  exact ⟨s, e, by simpa [and_assoc] using h⟩

/-! ## Examples -/

/-- A run of fair steps. -/
def runF (c : Cfg) : St → List Act → Option St
  | s, [] => some s
  | s, a :: l => if can s a && fair s a then (exec c s a).bind (fun s => runF c s l) else none

private theorem runF_fair {c : Cfg} : ∀ {l : List Act} {s s' : St}, Fair c s → runF c s l = some s' → Fair c s'
  | [], s, s', h, e => by simp [runF] at e; subst e; exact h
  | a :: l, s, s', h, e => by
    simp only [runF] at e
    split at e
    · rename_i hh
      simp only [Bool.and_eq_true] at hh
      cases e2 : exec c s a with
      | none => simp [e2] at e
      | some s2 => exact runF_fair (.step h hh.1 hh.2 e2) (by simpa [e2] using e)
    · cases e

/-- A connection that fails and is retried, succeeds, transfers data in two portions, and is closed and released. -/
def exRun : List Act := [.open_ .prog true, .fireWr 0, .go 0 { co := .res 5 }, .fireClr 0, .go 0 { ro := .retry }, .fireTm,
  .go 0 { co := .res 0 }, .go 0 {}, .setRead true, .setWrite true, .fireRd 1, .go 0 {}, .go 0 { data := [1, 2, 3] },
  .fireWr 1, .go 0 {}, .go 1 { cnt := 2 }, .setRead false, .go 0 { cnt := 0 }, .go 0 {}, .setRead true, .fireRun, .go 0 {},
  .go 0 { cnt := 1 }, .close, .fireClr 1, .go 0 {}, .fireRun, .go 0 {}, .free, .go 0 {}]

example : ((runF { retry := true } (init true) exRun).any fun s => s.dead && s.ev.reverse =
    [.openAcc 0, .openDone 0 0, .read 0 [1, 2, 3], .write, .read 0 [3], .read 0 [3], .closeAcc 0, .closeDone 0]) = true := by
  decide +kernel

/-- In the middle of it there are a reading and a writing thread. -/
example : ((runF { retry := true } (init true) (exRun.take 15)).any fun s =>
    s.th = [⟨.wrCb 1 .fin, some 1⟩, ⟨.rdCb 0, some 1⟩] && s.buf = [1, 2, 3]) = true := by decide +kernel

/-- A state at rest with an open that waits, and one with enabled callbacks. -/
example : ∃ s, Fair {} s ∧ rest s ∧ opening s.ev = true := by
  obtain ⟨s, e, h⟩ := of_any (p := fun s => s.th.isEmpty && !s.runQ && !s.tmRun && s.nIod = 1 && (s.iods 0).reg ≠ .clearing && opening s.ev)
    (o := runF {} (init true) [.open_ .prog true]) (by decide +kernel)
  have f := runF_fair (.init true) e
  simp only [Bool.and_eq_true, List.isEmpty_iff, Bool.not_eq_true', decide_eq_true_eq] at h
  obtain ⟨⟨⟨⟨⟨h1, h2⟩, h3⟩, h4⟩, h5⟩, h6⟩ := h
  refine ⟨s, f, ⟨h1, h2, h3, fun i => ?_⟩, h6⟩
  have := (C85_desc_partial _ s f)
  by_cases hi : s.iod = some i
  · have := (this.2.1 i hi).1
    have : i = 0 := by omega
    subst this; exact h5
  · exact (f.inv.desc.oth i hi).2

example : ((runF {} (initOpen false) [.setRead true, .setWrite true]).any fun s =>
    s.st = .opened && (s.iods 0).rd && (s.iods 0).wr && s.th.isEmpty) = true := by decide +kernel

/-- A close that needs time. -/
example : ((runF {} (initOpen false) [.close, .fireClr 0, .go 0 { cc := true }, .fireTm, .go 0 {}, .fireRun, .go 0 {}, .go 0 {}]).any fun s =>
    s.ev = [.closeDone 0, .closeAcc 0] && s.th.isEmpty && s.iod = none) = true := by decide +kernel

/-- A close during an open: both are reported, the open first. -/
example : ((runF {} (init true) [.open_ .prog true, .close, .fireRun, .go 0 {}, .go 0 {}, .fireClr 0, .go 0 {}, .fireRun, .go 0 {},
    .go 0 {}]).any fun s => s.ev = [.closeDone 0, .openDone 0 35, .closeAcc 0, .openAcc 0] && s.th.isEmpty && s.iod = none) = true := by
  decide +kernel

/-- `ordered` refuses reports in the wrong order. -/
example : ¬ ordered [.openDone 0 0, .closeAcc 0, .openAcc 0] ∧ ¬ ordered [.closeDone 0, .closeAcc 0, .openAcc 0] := by
  simp [ordered, opening, closing]

end Gensio.LlFd
