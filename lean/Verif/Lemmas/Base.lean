import Verif.Model.Base

/-!
# The invariant of the base gensio

`J w s` is the invariant inside a step: `w` is what the thread that makes the step counts for (`wt p` is what a thread waiting
at `p` counts for).  `Inv s` is the invariant between steps.
-/

namespace Gensio.Base

/-! ## Results -/

/-- The result is there and has the property. -/
def Ok {α : Type} (m : Option α) (P : α → Prop) : Prop := ∃ x, m = some x ∧ P x

theorem Ok.bind {α β : Type} {m : Option α} {f : α → Option β} {P : α → Prop} {Q : β → Prop} (h : Ok m P)
    (h2 : ∀ x, P x → Ok (f x) Q) : Ok (m >>= f) Q := by
  obtain ⟨x, rfl, hx⟩ := h
  exact h2 x hx

theorem Ok.some {α : Type} {x : α} {P : α → Prop} (h : P x) : Ok (some x) P := ⟨x, rfl, h⟩

theorem Ok.imp {α : Type} {m : Option α} {P Q : α → Prop} (h : Ok m P) (h2 : ∀ x, P x → Q x) : Ok m Q := by
  obtain ⟨x, e, hx⟩ := h
  exact ⟨x, e, h2 x hx⟩

theorem Ok.doIf {c : Bool} {f : St → Option St} {s : St} {P : St → Prop} (h : P s) (h2 : c = true → Ok (f s) P) :
    Ok (doIf c f s) P := by
  unfold Gensio.Base.doIf
  split
  · exact h2 (by assumption)
  · exact ⟨_, rfl, h⟩

/-! ## What threads count for -/

/-- What a thread counts for. -/
structure X where
  /-- References. -/
  ref : Nat := 0
  /-- References for the open. -/
  opn : Nat := 0
  /-- About to call the close callback. -/
  pre : Nat := 0
  /-- In the open callback, called by a deferred operation. -/
  dop : Nat := 0
  /-- In a read, by a deferred operation. -/
  rdD : Nat := 0
  /-- In a write ready callback, by a deferred operation. -/
  xmD : Nat := 0
  /-- In a read, by the lower layer. -/
  rdL : Nat := 0
  /-- In `basen_ll_write_ready`. -/
  xmL : Nat := 0
  /-- Callbacks of the lower layer. -/
  ll : Nat := 0
  /-- Handlers of `timer`. -/
  tT : Nat := 0
  /-- Handlers of `drain_timer`. -/
  dT : Nat := 0
  /-- A deferred operation before it looks at `deferred_close`. -/
  run : Nat := 0
  /-- A step of a deferred operation or timer. -/
  k7 : Nat := 0
  /-- An open that has not taken its reference. -/
  owe : Nat := 0

/-- What a waiting thread counts for. -/
def wt : Pc → X
  | .llOpenErr => { ref := 1, opn := 1 }
  | .dOpen => { ref := 1, dop := 1 }
  | .dReadErr | .dFilt | .dFiltCb => { ref := 1, rdD := 1 }
  | .dWrite => { ref := 1, xmD := 1 }
  | .closePre => { ref := 1, opn := 1, pre := 1 }
  | .closing => { ref := 1, opn := 1 }
  | .rFilt | .rFiltCb => { ref := 1, rdL := 1, ll := 1 }
  | .rWrite => { ref := 1, ll := 1 }
  | .wWrite => { ref := 1, xmL := 1, ll := 1 }
  | .tStart | .tFilt | .tStopped => { ref := 1, tT := 1 }
  | .tRet => { tT := 1 }
  | .dtStart | .dtStopped => { ref := 1, dT := 1 }
  | .dtRet => { dT := 1 }

/-- Sum over the waiting threads. -/
def cnt (f : X → Nat) : List Pc → Nat
  | [] => 0
  | p :: l => f (wt p) + cnt f l

theorem cnt_cons (f : X → Nat) (p : Pc) (l : List Pc) : cnt f (p :: l) = f (wt p) + cnt f l := rfl

theorem cnt_eraseIdx (f : X → Nat) {l : List Pc} {i : Nat} {p : Pc} (h : l[i]? = some p) :
    cnt f l = cnt f (l.eraseIdx i) + f (wt p) := by
  induction l generalizing i with
  | nil => simp at h
  | cons q l ih =>
    cases i with
    | zero => simp at h; subst h; simp [cnt]; omega
    | succ i =>
      simp at h
      simp only [List.eraseIdx_cons_succ, cnt, ih h]
      omega

theorem cnt_eq_zero {f : X → Nat} {l : List Pc} (h : ∀ p ∈ l, f (wt p) = 0) : cnt f l = 0 := by
  induction l with
  | nil => rfl
  | cons p l ih => simp only [cnt, h p (by simp), ih (fun q hq => h q (by simp [hq]))]

theorem of_cnt_zero {f : X → Nat} {l : List Pc} (h : cnt f l = 0) : ∀ p ∈ l, f (wt p) = 0 := by
  induction l with
  | nil => simp
  | cons p l ih =>
    simp only [cnt] at h
    intro q hq
    rcases List.mem_cons.1 hq with rfl | hq
    · omega
    · exact ih (by omega) q hq

theorem cnt_ll (l : List Pc) : cnt X.rdL l + cnt X.xmL l ≤ cnt X.ll l := by
  induction l with
  | nil => simp [cnt]
  | cons p l ih =>
    have : X.rdL (wt p) + X.xmL (wt p) ≤ X.ll (wt p) := by cases p <;> decide
    simp only [cnt]
    omega

theorem cnt_pre (l : List Pc) : cnt X.pre l ≤ cnt X.opn l := by
  induction l with
  | nil => simp [cnt]
  | cons p l ih =>
    have : X.pre (wt p) ≤ X.opn (wt p) := by cases p <;> decide
    simp only [cnt]
    omega

/-! ## References and timers -/

/-- A Boolean as a number. -/
def b (x : Bool) : Nat := if x then 1 else 0

@[simp, grind =] theorem b_true : b true = 1 := rfl
@[simp, grind =] theorem b_false : b false = 0 := rfl

/-- References a timer has. -/
def tmr (t : Tm) : Nat := b (!t.stopped) + b (t.done && t.inHeap)

/-- A timer, with `n` handlers running. -/
structure TmOk (t : Tm) (n : Nat) : Prop where
  hand : b t.inHandler = n + b t.done
  stp : t.done = true → t.inHeap = true → t.stopped = true
  arm : t.stopped = false → t.inHandler = false → t.inHeap = true
  heap : t.inHeap = true → t.done = false → t.stopped = false ∧ t.inHandler = false

/-- The reference of the open. -/
def bst (s : BS) : Nat := if s = .closed then 0 else 1

/-- References add up. -/
structure T (w : X) (s : St) : Prop where
  live : s.freed = false
  pos : 0 < s.ref
  eq : s.ref + w.owe = b (!s.uf) + bst s.st + (cnt X.opn s.th + w.opn) + tmr s.tm + tmr s.dtm + b s.dPend +
    (cnt X.ref s.th + w.ref) + s.leak
  tm : TmOk s.tm (cnt X.tT s.th + w.tT)
  dtm : TmOk s.dtm (cnt X.dT s.th + w.dT)

/-- Somebody besides the timers has a reference. -/
def Hold (w : X) (s : St) : Prop := w.owe < b (!s.uf) + bst s.st + (cnt X.opn s.th + w.opn) + (cnt X.ref s.th + w.ref)

/-! ## Control -/

/-- States, flags and threads. -/
structure C (w : X) (s : St) : Prop where
  ll1 : s.st = .closed → s.ll = .closed
  ll2 : s.st = .inLlOpen → s.ll = .opening
  ll3 : s.st = .inFilterOpen ∨ s.st = .opn ∨ s.st = .waitDrain ∨ s.st = .inFilterClose → s.ll = .opn
  ll4 : s.st = .inLlIoErr → s.ll = .closing
  ll5 : s.st = .ioErr → s.ll = .closed
  ll6 : s.st = .inLlClose → s.ll = .closing ∨ (s.ll = .closed ∧ s.dClose = true)
  ll7 : 0 < cnt X.ll s.th + w.ll → s.ll = .opn ∨ s.ll = .closing
  ll8 : w.rdL + w.xmL ≤ w.ll
  err1 : s.llErr ≠ 0 → s.st = .inLlClose ∨ s.st = .inLlIoErr ∨ s.st = .ioErr ∨ s.st = .closed
  err2 : s.st = .inLlIoErr ∨ s.st = .ioErr → s.llErr ≠ 0 ∧ s.openErr ≠ 0
  err3 : s.st = .inLlOpen ∨ s.st = .inFilterOpen ∨ s.st = .opn → s.openErr = 0
  err4 : s.st = .waitDrain ∨ s.st = .inFilterClose ∨ s.st = .inLlClose → s.openErr ≠ 0
  dop : s.dOpen = true → s.openDone.isSome = true ∧ s.dPend = true ∧ s.st ≠ .closed ∧ s.st ≠ .inLlOpen ∧ s.st ≠ .inFilterOpen
  od : s.st = .inLlOpen ∨ s.st = .inFilterOpen → s.openDone.isSome = true
  dop1 : cnt X.dop s.th + w.dop ≤ 1
  dop2 : 0 < cnt X.dop s.th + w.dop → s.openDone = none
  rd : b s.inRead = (cnt X.rdD s.th + w.rdD) + (cnt X.rdL s.th + w.rdL)
  xm : b s.inXmit = (cnt X.xmD s.th + w.xmD) + (cnt X.xmL s.th + w.xmL)
  dcl : s.dClose = true → (s.st = .inLlClose ∨ s.st = .ioErr) ∧ s.ll = .closed ∧
    (s.dPend = true ∨ 0 < (cnt X.dop s.th + w.dop) + (cnt X.rdD s.th + w.rdD) + (cnt X.xmD s.th + w.xmD) + w.run)
  k7 : s.dClose = true → 0 < w.k7 → cnt X.dop s.th + w.dop = 0
  cl : s.st = .closed ∨ s.st = .inLlOpen → s.dPend = false ∧
    (cnt X.dop s.th + w.dop) + (cnt X.rdD s.th + w.rdD) + (cnt X.xmD s.th + w.xmD) + w.run = 0
  canw : s.st = .inLlOpen → s.canWrite = false
  n0 : s.nid = 0 → s.st = .closed ∧ s.llErr = 0 ∧ s.openErr = 0 ∧ s.canWrite = false
  cb : s.ll = .opening → s.llCb = true
  owe : 0 < w.owe → s.st = .inFilterOpen → s.dPend = false ∧
    (cnt X.dop s.th + w.dop) + (cnt X.rdD s.th + w.rdD) + (cnt X.xmD s.th + w.xmD) + w.run = 0
  owe2 : 0 < w.owe → cnt X.ll s.th + w.ll = 0
  want : s.wantClose = false
  inw : s.inWrite = 0
  pre1 : cnt X.pre s.th + w.pre ≤ 1
  pre2 : 0 < cnt X.pre s.th + w.pre → s.st = .closed ∧ s.closeDone.isSome = true
  creq : s.st = .ioErr → s.dClose = true → s.closeReq = true ∨ s.uf = true
  uf : s.uf = true → s.st = .closed ∨ s.st = .waitDrain ∨ s.st = .inFilterClose ∨ s.st = .inLlClose ∨
    (s.st = .ioErr ∧ s.dClose = true)

/-! ## History -/

/-- The open that was accepted and neither reported nor given up. -/
def pendOpen : List TEv → Option Nat
  | [] => none
  | .openOk i :: _ => some i
  | .openCb _ _ :: _ => none
  | .closeOk _ :: _ => none
  | .free :: _ => none
  | _ :: t => pendOpen t

/-- The close that was accepted and neither reported nor given up. -/
def pendClose : List TEv → Option Nat
  | [] => none
  | .closeOk i :: _ => some i
  | .closeCb _ :: _ => none
  | .free :: _ => none
  | _ :: t => pendClose t

/-- A close was reported and no open accepted since. -/
def lastClosed : List TEv → Bool
  | [] => false
  | .openOk _ :: _ => false
  | .closeCb _ :: _ => true
  | _ :: t => lastClosed t

/-- Every report of an open is the first one and follows its acceptance; nothing else comes in between. -/
def OpenGood : List TEv → Prop
  | [] => True
  | .openOk i :: t => .openOk i ∉ t ∧ (∀ e, .openCb i e ∉ t) ∧ pendOpen t = none ∧ OpenGood t
  | .openCb i _ :: t => .openOk i ∈ t ∧ (∀ e, .openCb i e ∉ t) ∧ (∀ j, pendOpen t = some j → j = i) ∧ OpenGood t
  | _ :: t => OpenGood t

/-- Every report of a close is the first one and follows its acceptance; nothing else comes in between. -/
def CloseGood : List TEv → Prop
  | [] => True
  | .closeOk i :: t => .closeOk i ∉ t ∧ .closeCb i ∉ t ∧ pendClose t = none ∧ CloseGood t
  | .closeCb i :: t => .closeOk i ∈ t ∧ .closeCb i ∉ t ∧ (∀ j, pendClose t = some j → j = i) ∧ CloseGood t
  | _ :: t => CloseGood t

/-- No open callback, read or write ready after the report of a close and before the next accepted open. -/
def Quiet : List TEv → Prop
  | [] => True
  | .read :: t => lastClosed t = false ∧ Quiet t
  | .write :: t => lastClosed t = false ∧ Quiet t
  | .openCb _ _ :: t => lastClosed t = false ∧ Quiet t
  | _ :: t => Quiet t

/-- The numbers in the history are below `n`. -/
def Below (n : Nat) : TEv → Prop
  | .openOk i | .openCb i _ | .closeOk i | .closeCb i => i < n
  | _ => True

/-- A close goes on. -/
def Closing (w : X) (s : St) : Prop :=
  s.st = .waitDrain ∨ s.st = .inFilterClose ∨ s.st = .inLlClose ∨ (s.st = .ioErr ∧ s.dClose = true) ∨
  0 < cnt X.pre s.th + w.pre

/-- The history fits. -/
structure H (w : X) (s : St) : Prop where
  below : ∀ e ∈ s.tr, Below s.nid e
  bo : ∀ i, s.openDone = some i → i < s.nid
  bc : ∀ i, s.closeDone = some i → i < s.nid
  og : OpenGood s.tr
  cg : CloseGood s.tr
  q : Quiet s.tr
  od : s.st ≠ .closed → ∀ i, s.openDone = some i →
    (.openOk i ∈ s.tr ∨ (0 < w.owe ∧ i + 1 = s.nid ∧ .openOk i ∉ s.tr)) ∧ ∀ e, .openCb i e ∉ s.tr
  owe : 0 < w.owe → s.openDone = some (s.nid - 1) ∧ (.openOk (s.nid - 1) ∉ s.tr ∧ pendOpen s.tr = none) ∧
    (s.st = .inLlOpen ∨ s.st = .inFilterOpen ∨ s.st = .inLlIoErr ∨ (s.dOpen = true ∧ s.st = .opn))
  cd : Closing w s → ∀ i, s.closeDone = some i → .closeOk i ∈ s.tr ∧ .closeCb i ∉ s.tr
  po : ∀ i, pendOpen s.tr = some i → s.openDone = some i ∧
    (s.st = .inLlOpen ∨ s.st = .inFilterOpen ∨ s.st = .inLlIoErr ∨ s.dOpen = true)
  pc : ∀ i, pendClose s.tr = some i → s.closeDone = some i ∧ Closing w s
  lc : lastClosed s.tr = true → s.st = .closed ∨ 0 < w.owe

/-- The invariant inside a step. -/
structure J (w : X) (s : St) : Prop where
  t : T w s
  h : Hold w s
  c : C w s
  hi : H w s

/-- The memory is released. -/
structure Dead (s : St) : Prop where
  freed : s.freed = true
  ref : s.ref = 0
  uf : s.uf = true
  th : ∀ p ∈ s.th, p.out = true
  ll : s.ll = .closed
  dPend : s.dPend = false
  tm : s.tm.inHeap = false
  dtm : s.dtm.inHeap = false
  st : s.st = .closed
  dop : s.dOpen = false
  hi : H {} s

/-- The invariant between steps. -/
def Inv (s : St) : Prop := (T {} s ∧ C {} s ∧ H {} s) ∨ Dead s

/-! ## Timers -/

theorem TmOk.start {t t' : Tm} {n : Nat} (h : TmOk t n) (e : t.start = some t') :
    TmOk t' n ∧ tmr t' = tmr t + b t.stopped := by
  obtain ⟨h1, h2, h3, h4⟩ := h
  obtain ⟨a, c, d, f⟩ := t
  unfold Tm.start at e
  cases a <;> simp at e
  subst e
  cases c <;> cases d <;> cases f <;> simp [tmr] at * <;> first | omega | (constructor <;> simp <;> omega)

theorem TmOk.stop {t : Tm} {n : Nat} (h : TmOk t n) :
    TmOk t.stop.1 n ∧ tmr t.stop.1 = 0 ∧ t.stop.2 = !t.stopped := by
  obtain ⟨h1, h2, h3, h4⟩ := h
  obtain ⟨a, c, d, f⟩ := t
  refine ⟨⟨?_, ?_, ?_, ?_⟩, ?_, rfl⟩ <;> simp [Tm.stop, tmr] at * <;> assumption

theorem TmOk.stopDone {t : Tm} {n : Nat} (h : TmOk t n) : TmOk t.stopDone n ∧ tmr t.stopDone = tmr t := by
  obtain ⟨h1, h2, h3, h4⟩ := h
  obtain ⟨a, c, d, f⟩ := t
  unfold Tm.stopDone
  cases a <;> cases c <;> cases d <;> cases f <;> simp [tmr] at * <;> first | omega | (constructor <;> simp <;> omega)

/-- What a call of the filter can change. -/
structure Fr (s s' : St) : Prop where
  eq : ∃ r l t p c, s' = { s with ref := r, leak := l, tm := t, tsp := p, canWrite := c }
  cw : s'.canWrite = true → s.canWrite = true

theorem Fr.refl (s : St) : Fr s s := ⟨⟨_, _, _, _, _, rfl⟩, id⟩

theorem Fr.trans {s t u : St} (h : Fr s t) (g : Fr t u) : Fr s u := by
  obtain ⟨⟨_, _, _, _, _, rfl⟩, h2⟩ := h
  obtain ⟨⟨_, _, _, _, _, rfl⟩, g2⟩ := g
  exact ⟨⟨_, _, _, _, _, rfl⟩, fun e => h2 (g2 e)⟩

theorem Fr.c {w : X} {s s' : St} (h : Fr s s') (c : C w s) : C w s' := by
  obtain ⟨⟨_, _, _, _, _, rfl⟩, h2⟩ := h
  have : ∀ x y : Bool, (x = true → y = true) → y = false → x = false := by decide
  exact { c with
    canw := fun e => this _ _ h2 (c.canw e)
    n0 := fun e => ⟨(c.n0 e).1, (c.n0 e).2.1, (c.n0 e).2.2.1, this _ _ h2 (c.n0 e).2.2.2⟩ }

theorem Fr.nw {s s' : St} (h : Fr s s') (e : s.canWrite = false) : s'.canWrite = false := by
  cases e2 : s'.canWrite
  · rfl
  · rw [h.cw e2] at e
    cases e

theorem Fr.hi {w : X} {s s' : St} (h : Fr s s') (c : H w s) : H w s' := by
  obtain ⟨⟨_, _, _, _, _, rfl⟩, h2⟩ := h
  exact { c with }

theorem Fr.hold {w : X} {s s' : St} (h : Fr s s') (c : Hold w s) : Hold w s' := by
  obtain ⟨⟨_, _, _, _, _, rfl⟩, h2⟩ := h
  exact c

theorem startTimer_ok {w : X} {s : St} (h : T w s) : Ok (startTimer s) (fun s' => T w s' ∧ Fr s s') := by
  unfold startTimer
  split
  · exact ⟨_, rfl, h, Fr.refl _⟩
  · rename_i t e
    obtain ⟨h1, h2⟩ := h.tm.start e
    have hp := h.pos
    rw [ref, if_neg (by simp; omega)]
    refine ⟨_, rfl, { live := h.live, pos := by simp, eq := ?_, tm := h1, dtm := h.dtm }, ⟨⟨_, _, _, _, _, rfl⟩, id⟩⟩
    have := h.eq
    simp only [h2]
    cases s.tm.stopped <;> simp <;> omega

theorem stopTimer_ok {w : X} {s : St} (h : T w s) (g : Hold w s) : Ok (stopTimer s) (fun s' => T w s' ∧ Fr s s') := by
  unfold stopTimer
  obtain ⟨h1, h2, h3⟩ := h.tm.stop
  have he := h.eq
  have hp := h.pos
  unfold Hold at g
  simp only [h3]
  cases hs : s.tm.stopped with
  | true =>
    refine ⟨_, rfl, { live := h.live, pos := h.pos, eq := ?_, tm := h1, dtm := h.dtm }, ⟨⟨_, _, _, _, _, rfl⟩, id⟩⟩
    simp only [h2]
    rw [show tmr s.tm = b (!s.tm.stopped) + b (s.tm.done && s.tm.inHeap) from rfl, hs] at he
    cases hd : (s.tm.done && s.tm.inHeap) <;> simp [hd] at he ⊢ <;> omega
  | false =>
    rw [show tmr s.tm = b (!s.tm.stopped) + b (s.tm.done && s.tm.inHeap) from rfl, hs] at he
    have hd : (s.tm.done && s.tm.inHeap) = false := by
      cases h5 : s.tm.done <;> cases h6 : s.tm.inHeap <;> try rfl
      have := h.tm.stp h5 h6
      rw [hs] at this; cases this
    simp only [hd] at he
    simp only [Bool.not_false, b_true, b_false] at he
    simp only [Bool.not_false, deref, if_true, hd]
    rw [if_neg (by omega)]
    refine ⟨_, rfl, { live := h.live, pos := by simp; omega, eq := ?_, tm := h1, dtm := h.dtm },
      ⟨⟨_, _, _, _, _, rfl⟩, id⟩⟩
    simp [h2]
    omega

theorem fop_ok {w : X} {s : St} (n : Nat) (h : T w s) (g : Hold w s) : Ok (fop n s) (fun s' => T w s' ∧ Fr s s') := by
  unfold fop
  split
  · split
    · exact startTimer_ok h
    · exact ⟨_, rfl, { h with }, ⟨⟨_, _, _, _, _, rfl⟩, id⟩⟩
  · split
    · exact stopTimer_ok h g
    · exact ⟨_, rfl, h, Fr.refl _⟩
  · exact ⟨_, rfl, { h with }, ⟨⟨_, _, _, _, _, rfl⟩, by simp⟩⟩
  · exact ⟨_, rfl, h, Fr.refl _⟩

theorem hook_ok {w : X} {s : St} (a : Ans) (k : Nat) (h : T w s) (g : Hold w s) :
    Ok (hook a k s) (fun s' => T w s' ∧ Fr s s') := by
  unfold hook
  refine (fop_ok _ h g).bind (fun s1 h1 => ?_)
  exact (fop_ok _ h1.1 (h1.2.hold g)).imp (fun s2 h2 => ⟨h2.1, h1.2.trans h2.2⟩)

theorem stopDrain_t {w : X} {s : St} (h : T w s) : T w (stopDrain s) := by
  obtain ⟨h1, h2⟩ := h.dtm.stopDone
  exact { live := h.live, pos := h.pos, tm := h.tm, dtm := h1,
          eq := by have := h.eq; simp only [stopDrain, h2]; exact this }

theorem ref_ok {w : X} {s : St} (h : 0 < s.ref) : Ok (ref s) (fun s' => s' = { s with ref := s.ref + 1 }) := by
  rw [ref, if_neg (by omega)]
  exact ⟨_, rfl, rfl⟩

theorem sched_ok {w : X} {s : St} (h : T w s) :
    Ok (sched s) (fun s' => T w s' ∧ ∃ r, s' = { s with dPend := true, ref := r }) := by
  unfold sched
  cases hd : s.dPend with
  | true =>
    refine ⟨_, rfl, h, s.ref, ?_⟩
    obtain ⟨_⟩ := s
    simp only at hd
    subst hd
    rfl
  | false =>
    have := h.pos
    have he := h.eq
    simp only [Bool.false_eq_true, if_false]
    rw [ref, if_neg (by simp; omega)]
    refine ⟨_, rfl, { h with pos := by simp, eq := ?_ }, _, rfl⟩
    simp [hd] at he ⊢
    omega

theorem T.st {w : X} {s : St} (h : T w s) (x : BS) (e : bst x = bst s.st) : T w { s with st := x } :=
  { h with eq := by have := h.eq; simp only [e]; exact this }

/-- Proves a `C` goal from the parts of a `C` hypothesis. -/
macro "cgo" h:term : tactic =>
  `(tactic| (obtain ⟨h_ll1, h_ll2, h_ll3, h_ll4, h_ll5, h_ll6, h_ll7, h_ll8, h_err1, h_err2, h_err3, h_err4, h_dop, h_od,
      h_dop1, h_dop2, h_rd, h_xm, h_dcl, h_k7, h_cl, h_canw, h_n0, h_cb, h_owe, h_owe2, h_want, h_inw, h_pre1, h_pre2, h_creq, h_uf⟩ := $h
             constructor <;> (try dsimp only at *) <;> first | assumption | grind))

/-- Proves an `H` goal from the parts of an `H` hypothesis. -/
macro "hgo" h:term : tactic =>
  `(tactic| (obtain ⟨g_below, g_bo, g_bc, g_og, g_cg, g_q, g_od, g_owe, g_cd, g_po, g_pc, g_lc⟩ := $h
             unfold Closing at *
             constructor <;> (try dsimp only at *) <;> first | assumption | grind [Closing]))

theorem llCloseOrDefer_eq {a : Ans} (hcl : a.clOk = true) (s : St) : llCloseOrDefer a s = some { s with ll := .closing } := by
  simp [llCloseOrDefer, llClose, hcl]

theorem llCloseIoerr_eq {a : Ans} (hcl : a.clOk = true) (s : St) : llCloseIoerr a s = { s with ll := .closing } := by
  simp [llCloseIoerr, llClose, hcl]

theorem closeFromWaitDrain_eq {a : Ans} (hcl : a.clOk = true) {s : St} (h : s.inWrite = 0) :
    closeFromWaitDrain a s = some { s with st := .inLlClose, ll := .closing } := by
  simp [closeFromWaitDrain, h, llCloseOrDefer_eq hcl]

/-- What `handleIoerr` leaves. -/
structure HP (s s' : St) : Prop where
  ll : s'.ll = .closed → s.ll = .closed
  fc : s.st = .inFilterClose ∨ s.st = .inLlClose → s'.st = .inFilterClose ∨ s'.st = .inLlClose
  fo : s.st = .inFilterOpen ∨ s.st = .inLlIoErr → s'.st = .inFilterOpen ∨ s'.st = .inLlIoErr
  nc : s.st ≠ .closed → s'.st ≠ .closed

theorem HP.refl (s : St) : HP s s := ⟨id, id, id, id⟩

theorem HP.trans {s t u : St} (h : HP s t) (g : HP t u) : HP s u :=
  ⟨fun e => h.ll (g.ll e), fun e => g.fc (h.fc e), fun e => g.fo (h.fo e), fun e => g.nc (h.nc e)⟩

theorem Fr.hp {s s' : St} (h : Fr s s') : HP s s' := by
  obtain ⟨⟨_, _, _, _, _, rfl⟩, h2⟩ := h
  exact ⟨id, id, id, id⟩

theorem J.fr {w : X} {s s' : St} (h : J w s) (g : T w s') (f : Fr s s') : J w s' :=
  ⟨g, f.hold h.h, f.c h.c, f.hi h.hi⟩

theorem handleIoerr_ok {w : X} {s : St} {a : Ans} (k : Nat) {err : Nat} (h : J w s) (hcl : a.clOk = true) (he : err ≠ 0)
    (hst : s.llErr = 0 → s.st ≠ .closed ∧ s.st ≠ .inLlOpen) : Ok (handleIoerr a k err s) (fun s' => J w s' ∧ HP s s') := by
  unfold handleIoerr
  rw [if_neg he]
  by_cases hl : s.llErr = 0
  · rw [if_neg (by simp [hl])]
    obtain ⟨h1, h2⟩ := hst hl
    have hT : T w { s with llErr := err, openErr := err, canWrite := true } := { h.t with }
    have hH : Hold w { s with llErr := err, openErr := err, canWrite := true } := h.h
    have hc := h.c
    have hi := h.hi
    dsimp only
    split
    · rename_i e; exact absurd e h1
    · rename_i e; exact absurd e h2
    · rename_i e; exact absurd hl (h.c.err2 (.inr e)).1
    · rename_i e
      refine (hook_ok a k hT hH).bind (fun s2 h1 => ?_)
      obtain ⟨t1, ⟨⟨r, l, t, p, c, rfl⟩, -⟩⟩ := h1
      rw [llCloseIoerr_eq hcl]
      refine ⟨_, rfl, ⟨{ t1 with eq := ?_ }, ?_, ?_, ?_⟩, ?_⟩
      · have := t1.eq; simp [bst, e] at this ⊢; exact this
      · simp [Hold, bst, e] at hH ⊢; exact hH
      · cgo hc
      · hgo hi
      · constructor <;> simp [e]
    · rename_i e
      refine (hook_ok a k hT hH).bind (fun s2 h1 => ?_)
      obtain ⟨t1, ⟨⟨r, l, t, p, c, rfl⟩, -⟩⟩ := h1
      refine (sched_ok (w := w) ?_).bind (fun s2 h1 => ?_)
      · exact { t1 with }
      obtain ⟨t2, r2, rfl⟩ := h1
      rw [if_pos h.c.inw, llCloseIoerr_eq hcl]
      refine ⟨_, rfl, ⟨{ t2 with eq := ?_ }, ?_, ?_, ?_⟩, ?_⟩
      · have := t2.eq; simp [bst, e] at this ⊢; exact this
      · simp [Hold, bst, e] at hH ⊢; exact hH
      · cgo hc
      · hgo hi
      · constructor <;> simp [e]
    · rename_i e
      refine (hook_ok a k hT hH).bind (fun s2 h1 => ?_)
      obtain ⟨t1, ⟨⟨r, l, t, p, c, rfl⟩, -⟩⟩ := h1
      have t2 := stopDrain_t t1
      rw [closeFromWaitDrain_eq hcl (by exact h.c.inw)]
      simp only [stopDrain] at t2 ⊢
      refine ⟨_, rfl, ⟨{ t2 with eq := ?_ }, ?_, ?_, ?_⟩, ?_⟩
      · have := t2.eq; simp [bst, e] at this ⊢; exact this
      · simp [Hold, bst, e] at hH ⊢; exact hH
      · cgo hc
      · hgo hi
      · constructor <;> simp [e]
    · rename_i e
      refine (hook_ok a k hT hH).bind (fun s2 h1 => ?_)
      obtain ⟨t1, ⟨⟨r, l, t, p, c, rfl⟩, -⟩⟩ := h1
      rw [if_pos h.c.inw, llCloseOrDefer_eq hcl]
      refine ⟨_, rfl, ⟨{ t1 with eq := ?_ }, ?_, ?_, ?_⟩, ?_⟩
      · have := t1.eq; simp [bst, e] at this ⊢; exact this
      · simp [Hold, bst, e] at hH ⊢; exact hH
      · cgo hc
      · hgo hi
      · constructor <;> simp [e]
    · rename_i e
      exact ⟨_, rfl, ⟨hT, hH, by cgo hc, { hi with }⟩, ⟨id, id, id, id⟩⟩
    · rename_i e
      exact ⟨_, rfl, ⟨hT, hH, by cgo hc, { hi with }⟩, ⟨id, id, id, id⟩⟩
  · rw [if_pos (by simpa using hl)]
    exact ⟨_, rfl, h, HP.refl _⟩

theorem setLlEnables_ok {w : X} {s : St} {a : Ans} (k : Nat) (h : J w s) :
    Ok (setLlEnables a k s) (fun s' => J w s' ∧ HP s s' ∧ (s.st ≠ .opn → s' = s)) := by
  unfold setLlEnables
  split
  · exact ⟨_, rfl, h, HP.refl _, fun _ => rfl⟩
  · split
    · exact ⟨_, rfl, h, HP.refl _, fun _ => rfl⟩
    · split
      · rename_i e
        simp only [Bool.and_eq_true, decide_eq_true_eq] at e
        have e := e.1.1
        refine (sched_ok (w := w) (s := { s with dRead := true }) { h.t with }).imp (fun s' h1 => ?_)
        obtain ⟨t1, r, rfl⟩ := h1
        refine ⟨⟨t1, h.h, ?_, { h.hi with }⟩, ⟨id, id, id, id⟩, fun h => absurd e h⟩
        have hc := h.c
        cgo hc
      · exact ⟨_, rfl, h, HP.refl _, fun _ => rfl⟩

theorem ulWrite_ok {w : X} {s : St} {a : Ans} (k : Nat) (h : T w s) (g : Hold w s) :
    Ok (ulWrite a k s) (fun p => T w p.1 ∧ Fr s p.1) := by
  unfold ulWrite
  refine (hook_ok a k h g).bind (fun s1 h1 => ?_)
  split
  · obtain ⟨t1, f⟩ := h1
    refine ⟨_, rfl, { t1 with }, f.trans ⟨⟨_, _, _, _, _, rfl⟩, by simp⟩⟩
  · exact ⟨_, rfl, h1⟩

theorem filtErr_ok {w : X} {s : St} {a : Ans} (k : Nat) (h : J w s) :
    Ok (filtErr a k s) (fun p => J w p.1 ∧ Fr s p.1) := by
  unfold filtErr
  refine (hook_ok a (k + 1) h.t h.h).bind (fun s1 h1 => ?_)
  exact ⟨_, rfl, h.fr h1.1 h1.2, h1.2⟩

theorem push_ok {w : X} {s : St} {a : Ans} (k : Nat) (h : J w s) (hcl : a.clOk = true) (hb : s.st = .closed → a.b k = false) :
    Ok (push a k s) (fun p => J w p.1 ∧ HP s p.1 ∧ (p.2.1 = 0 → Fr s p.1)) := by
  unfold push
  split
  · rename_i e
    simp only [Bool.and_eq_true, decide_eq_true_eq] at e
    obtain ⟨⟨e1, e2⟩, e3⟩ := e
    refine (ulWrite_ok (k + 1) h.t h.h).bind (fun p h1 => ?_)
    obtain ⟨s1, err⟩ := p
    obtain ⟨t1, f1⟩ := h1
    simp only at t1 f1 ⊢
    have j1 := h.fr t1 f1
    split
    · rename_i he
      refine (handleIoerr_ok (k + 5) j1 hcl he (fun _ => ?_)).bind (fun s2 h2 => ?_)
      · obtain ⟨⟨_, _, _, _, _, rfl⟩, _⟩ := f1
        constructor
        · intro e; rw [hb e] at e3; cases e3
        · intro e; rw [h.c.canw e] at e2; cases e2
      · exact ⟨_, rfl, h2.1, f1.hp.trans h2.2, fun e => absurd e he⟩
    · exact ⟨_, rfl, j1, f1.hp, fun _ => f1⟩
  · exact ⟨_, rfl, h, HP.refl _, fun _ => Fr.refl _⟩

theorem Fr.st {s s' : St} (h : Fr s s') : s'.st = s.st := by
  obtain ⟨⟨_, _, _, _, _, rfl⟩, _⟩ := h
  rfl

theorem tryConnectEnd_ok {w : X} {s : St} {a : Ans} (k : Nat) (err : Nat) (h : J w s) (hs : s.st = .inFilterOpen) :
    Ok (tryConnectEnd a k err s) (fun p => J w p.1 ∧ Fr s p.1) := by
  unfold tryConnectEnd
  refine (setLlEnables_ok k h).bind (fun s1 h1 => ?_)
  obtain ⟨j1, -, e1⟩ := h1
  have e1 := e1 (by rw [hs]; decide)
  subst e1
  split
  · exact ⟨_, rfl, j1, Fr.refl _⟩
  · refine (stopTimer_ok j1.t j1.h).bind (fun s2 h2 => ?_)
    obtain ⟨t2, f2⟩ := h2
    have j2 := j1.fr t2 f2
    split
    · refine (startTimer_ok t2).bind (fun s3 h3 => ?_)
      exact ⟨_, rfl, j2.fr h3.1 h3.2, f2.trans h3.2⟩
    · exact ⟨_, rfl, j2, f2⟩

theorem tryConnect_nw {w : X} {s : St} {a : Ans} (k : Nat) (h : J w s) (hs : s.st = .inFilterOpen) (hw : s.canWrite = false) :
    Ok (tryConnect a k s) (fun p => J w p.1 ∧ Fr s p.1) := by
  unfold tryConnect
  refine (filtErr_ok k h).bind (fun p h1 => ?_)
  obtain ⟨s1, err⟩ := p
  obtain ⟨j1, f1⟩ := h1
  simp only at j1 f1 ⊢
  have hs1 : s1.st = .inFilterOpen := f1.st.trans hs
  split
  · have hn : push a (k + 3) s1 = some (s1, 0, false) := by simp [push, f1.nw hw]
    rw [hn]
    simp only [Option.bind_eq_bind, Option.bind_some, ne_eq, not_true_eq_false, if_false]
    refine (filtErr_ok (k + 10) j1).bind (fun p h3 => ?_)
    obtain ⟨s3, err3⟩ := p
    obtain ⟨j3, f3⟩ := h3
    simp only at j3 f3 ⊢
    have hs3 : s3.st = .inFilterOpen := f3.st.trans hs1
    split
    · exact ⟨_, rfl, j3, f1.trans f3⟩
    · exact (tryConnectEnd_ok (k + 13) _ j3 hs3).imp (fun p h4 => ⟨h4.1, (f1.trans f3).trans h4.2⟩)
  · split
    · exact ⟨_, rfl, j1, f1⟩
    · exact (tryConnectEnd_ok (k + 13) _ j1 hs1).imp (fun p h4 => ⟨h4.1, f1.trans h4.2⟩)

theorem tryConnect_ok {w : X} {s : St} {a : Ans} (k : Nat) (h : J w s) (hcl : a.clOk = true) (hs : s.st = .inFilterOpen) :
    Ok (tryConnect a k s) (fun p => J w p.1 ∧ (p.1.st = .inFilterOpen ∨ p.1.st = .inLlIoErr) ∧
      (p.2 = 0 → p.1.st = .inFilterOpen)) := by
  unfold tryConnect
  refine (filtErr_ok k h).bind (fun p h1 => ?_)
  obtain ⟨s1, err⟩ := p
  obtain ⟨j1, f1⟩ := h1
  simp only at j1 f1 ⊢
  have hs1 : s1.st = .inFilterOpen := f1.st.trans hs
  split
  · refine (push_ok (k + 3) j1 hcl (fun e => by rw [hs1] at e; cases e)).bind (fun p h2 => ?_)
    obtain ⟨s2, err2, wr⟩ := p
    obtain ⟨j2, hp2, f2⟩ := h2
    simp only at j2 hp2 f2 ⊢
    split
    · rename_i e
      exact ⟨_, rfl, j2, hp2.fo (.inl hs1), fun h => absurd h e⟩
    · rename_i e
      have hs2 : s2.st = .inFilterOpen := (f2 (by omega)).st.trans hs1
      refine (filtErr_ok (k + 10) j2).bind (fun p h3 => ?_)
      obtain ⟨s3, err3⟩ := p
      obtain ⟨j3, f3⟩ := h3
      simp only at j3 f3 ⊢
      have hs3 : s3.st = .inFilterOpen := f3.st.trans hs2
      split
      · exact ⟨_, rfl, j3, .inl hs3, fun _ => hs3⟩
      · refine (tryConnectEnd_ok (k + 13) _ j3 hs3).imp (fun p h4 => ?_)
        have := h4.2.st.trans hs3
        exact ⟨h4.1, .inl this, fun _ => this⟩
  · split
    · exact ⟨_, rfl, j1, .inl hs1, fun _ => hs1⟩
    · refine (tryConnectEnd_ok (k + 13) _ j1 hs1).imp (fun p h4 => ?_)
      have := h4.2.st.trans hs1
      exact ⟨h4.1, .inl this, fun _ => this⟩

theorem connected_ok {w : X} {s : St} (h : J w s) (hs : s.st = .inFilterOpen ∨ s.st = .opn) (ho : s.st = .opn → s.openDone.isSome = true) (hw : 0 < w.owe → s.st = .inFilterOpen → s.dPend = false) :
    Ok (sched { s with st := .opn, dOpen := true }) (fun s' => J w s' ∧ s'.st ≠ .closed) := by
  have hb : bst s.st = 1 := by rcases hs with e | e <;> simp [bst, e]
  refine (sched_ok (w := w) (s := { s with st := .opn, dOpen := true }) ?_).imp (fun s' h1 => ?_)
  · exact { h.t with eq := by have := h.t.eq; simp only [hb] at this; exact this }
  · obtain ⟨t1, r, rfl⟩ := h1
    refine ⟨⟨t1, ?_, ?_, ?_⟩, by simp⟩
    · have := h.h
      simp only [Hold, hb] at this ⊢
      exact this
    · have hc := h.c
      have hi := h.hi.owe
      cgo hc
    · have hc := h.c.od
      have hi := h.hi
      hgo hi

theorem tryConnectFinish_nc {w : X} {s : St} {a : Ans} (k : Nat) (h : J w s) (hcl : a.clOk = true)
    (hs : s.st = .inFilterOpen) : Ok (tryConnectFinish a k s) (fun s' => J w s' ∧ s'.st ≠ .closed) := by
  unfold tryConnectFinish
  refine (tryConnect_ok k h hcl hs).bind (fun p h1 => ?_)
  obtain ⟨s1, err⟩ := p
  obtain ⟨j1, hst, he⟩ := h1
  simp only at j1 hst he ⊢
  split
  · rename_i e
    have hs1 := he e
    exact connected_ok j1 (.inl hs1) (fun h => by rw [hs1] at h; cases h) (fun h _ => (j1.c.owe h hs1).1)
  · split
    · rename_i e _
      refine (handleIoerr_ok _ j1 hcl e (fun _ => ?_)).imp (fun _ h => ⟨h.1, h.2.nc ?_⟩)
      · rcases hst with h | h <;> simp [h]
      · rcases hst with h | h <;> simp [h]
    · refine ⟨_, rfl, j1, ?_⟩
      rcases hst with h | h <;> simp [h]

theorem tryConnectFinish_ok {w : X} {s : St} {a : Ans} (k : Nat) (h : J w s) (hcl : a.clOk = true)
    (hs : s.st = .inFilterOpen) : Ok (tryConnectFinish a k s) (J w) :=
  (tryConnectFinish_nc k h hcl hs).imp (fun _ h => h.1)

theorem tryCloseEnd_ok {w : X} {s : St} {a : Ans} (err : Nat) (h : J w s) (hcl : a.clOk = true)
    (hs : s.st = .inFilterClose ∨ s.st = .inLlClose) (hl : s.ll ≠ .closed) :
    Ok (tryCloseEnd a err s) (fun s' => J w s' ∧ s'.st ≠ .closed) := by
  have hnc : s.st ≠ .closed := by rcases hs with e | e <;> simp [e]
  unfold tryCloseEnd
  split
  · exact ⟨_, rfl, h, hnc⟩
  · split
    · refine (stopTimer_ok h.t h.h).bind (fun s2 h2 => ?_)
      exact (startTimer_ok h2.1).imp (fun s3 h3 => ⟨(h.fr h2.1 h2.2).fr h3.1 h3.2, by rw [h3.2.st, h2.2.st]; exact hnc⟩)
    · have hb : bst s.st = 1 := by rcases hs with e | e <;> simp [bst, e]
      dsimp only
      rw [if_pos h.c.inw, llCloseOrDefer_eq hcl]
      refine ⟨_, rfl, ⟨{ h.t with eq := ?_ }, ?_, ?_, ?_⟩, by simp⟩
      · have := h.t.eq; simp only [hb] at this; exact this
      · have := h.h
        simp only [Hold, hb] at this ⊢
        exact this
      · have hc := h.c
        cgo hc
      · have hi := h.hi
        hgo hi

theorem tryClose_nc {w : X} {s : St} {a : Ans} (k : Nat) (h : J w s) (hcl : a.clOk = true) (hs : s.st = .inFilterClose) :
    Ok (tryClose a k s) (fun s' => J w s' ∧ s'.st ≠ .closed) := by
  unfold tryClose
  refine (filtErr_ok k h).bind (fun p h1 => ?_)
  obtain ⟨s1, err⟩ := p
  obtain ⟨j1, f1⟩ := h1
  simp only at j1 f1 ⊢
  have hs1 : s1.st = .inFilterClose := f1.st.trans hs
  have hl1 : s1.ll ≠ .closed := by rw [j1.c.ll3 (by simp [hs1])]; simp
  split
  · refine (push_ok (k + 3) j1 hcl (fun e => by rw [hs1] at e; cases e)).bind (fun p h2 => ?_)
    obtain ⟨s2, err2, wr⟩ := p
    obtain ⟨j2, hp2, f2⟩ := h2
    simp only at j2 hp2 f2 ⊢
    have hs2 := hp2.fc (.inl hs1)
    have hl2 : s2.ll ≠ .closed := fun e => hl1 (hp2.ll e)
    have : Ok (tryClose2 a (k + 10) err s2) (fun p => J w p.1 ∧ Fr s2 p.1) := by
      unfold tryClose2
      split
      · exact filtErr_ok _ j2
      · exact ⟨_, rfl, j2, Fr.refl _⟩
    refine this.bind (fun p h3 => ?_)
    obtain ⟨s3, err3⟩ := p
    obtain ⟨j3, f3⟩ := h3
    simp only at j3 f3 ⊢
    refine (setLlEnables_ok _ j3).bind (fun s4 h4 => ?_)
    obtain ⟨j4, hp4, -⟩ := h4
    have hp := f3.hp.trans hp4
    exact tryCloseEnd_ok _ j4 hcl (hp.fc hs2) (fun e => hl2 (hp.ll e))
  · exact tryCloseEnd_ok _ j1 hcl (.inl hs1) hl1

theorem tryClose_ok {w : X} {s : St} {a : Ans} (k : Nat) (h : J w s) (hcl : a.clOk = true) (hs : s.st = .inFilterClose) :
    Ok (tryClose a k s) (J w) := (tryClose_nc k h hcl hs).imp (fun _ h => h.1)

/-- `checkOps` cannot meet a close that nobody looks after. -/
def HK (w : X) : Prop := 0 < w.ll ∨ (0 < w.k7 ∧ w.run = 0) ∨ 0 < w.owe

theorem checkOps_ok {w : X} {s : St} {a : Ans} (k : Nat) (h : J w s) (hcl : a.clOk = true) (hk : HK w) :
    Ok (checkOps a k s) (J w) := by
  unfold checkOps
  split
  · rename_i e
    split
    · rename_i e1
      split
      · exact ⟨_, rfl, h⟩
      · exfalso
        have hc := h.c
        have ho := h.hi.owe
        simp only [Bool.not_eq_true', Bool.or_eq_false_iff] at e1
        have h1 := hc.dcl e
        have h2 := hc.k7 e
        have h3 := hc.rd
        have h4 := hc.xm
        have h5 := hc.ll7
        rw [e1.2] at h3
        rw [e1.1] at h4
        simp only [b_false] at h3 h4
        unfold HK at hk
        grind
    · exact ⟨_, rfl, h⟩
  · refine (Ok.doIf h (fun e => tryConnectFinish_ok _ h hcl (by simpa using e))).bind (fun s1 j1 => ?_)
    refine (Ok.doIf j1 (fun e => tryClose_ok _ j1 hcl (by simpa using e))).bind (fun s2 j2 => ?_)
    split
    · rename_i e
      simp only [Bool.and_eq_true, decide_eq_true_eq] at e
      refine tryClose_ok _ ?_ hcl rfl
      have t2 := stopDrain_t j2.t
      refine ⟨{ t2 with eq := ?_ }, ?_, ?_, ?_⟩
      · have := t2.eq; simp [stopDrain, bst, e] at this ⊢; exact this
      · have := j2.h; simp [stopDrain, Hold, bst, e] at this ⊢; exact this
      · have hc := j2.c
        unfold stopDrain
        cgo hc
      · have hi := j2.hi
        unfold stopDrain
        hgo hi
    · exact ⟨_, rfl, j2⟩

theorem pushCheck_ok {w : X} {s : St} {a : Ans} (k : Nat) (h : J w s) (hcl : a.clOk = true) (hk : HK w)
    (hb : s.st = .closed → a.b k = false) : Ok (pushCheck a k s) (fun p => J w p.1) := by
  unfold pushCheck
  refine (push_ok k h hcl hb).bind (fun p h1 => ?_)
  obtain ⟨s1, err, wr⟩ := p
  simp only at h1 ⊢
  split
  · refine (checkOps_ok _ h1.1 hcl hk).bind (fun s2 h2 => ?_)
    exact ⟨_, rfl, h2⟩
  · exact ⟨_, rfl, h1.1⟩

/-! ## Threads come and go -/

/-- The same counts. -/
structure Mv (w : X) (l : List Pc) (w' : X) (l' : List Pc) : Prop where
  ref : cnt X.ref l + w.ref = cnt X.ref l' + w'.ref
  opn : cnt X.opn l + w.opn = cnt X.opn l' + w'.opn
  pre : cnt X.pre l + w.pre = cnt X.pre l' + w'.pre
  dop : cnt X.dop l + w.dop = cnt X.dop l' + w'.dop
  rdD : cnt X.rdD l + w.rdD = cnt X.rdD l' + w'.rdD
  xmD : cnt X.xmD l + w.xmD = cnt X.xmD l' + w'.xmD
  rdL : cnt X.rdL l + w.rdL = cnt X.rdL l' + w'.rdL
  xmL : cnt X.xmL l + w.xmL = cnt X.xmL l' + w'.xmL
  ll : cnt X.ll l + w.ll = cnt X.ll l' + w'.ll
  tT : cnt X.tT l + w.tT = cnt X.tT l' + w'.tT
  dT : cnt X.dT l + w.dT = cnt X.dT l' + w'.dT
  run : w.run = w'.run
  k7 : w.k7 = w'.k7
  owe : w.owe = w'.owe
  ll8 : w'.rdL + w'.xmL ≤ w'.ll

theorem Mv.t {w w' : X} {s : St} {l : List Pc} (m : Mv w s.th w' l) (h : T w s) : T w' { s with th := l } := by
  obtain ⟨h1, h2, h3, h4, h5⟩ := h
  rw [m.tT] at h4
  rw [m.dT] at h5
  rw [m.ref, m.opn, m.owe] at h3
  exact ⟨h1, h2, h3, h4, h5⟩

theorem Mv.c {w w' : X} {s : St} {l : List Pc} (m : Mv w s.th w' l) (h : C w s) : C w' { s with th := l } := by
  obtain ⟨m1, m2, m3, m4, m5, m6, m7, m8, m9, m10, m11, m12, m13, m14, m15⟩ := m
  cgo h

theorem Mv.h {w w' : X} {s : St} {l : List Pc} (m : Mv w s.th w' l) (h : H w s) : H w' { s with th := l } := by
  have m1 := m.pre
  have m2 := m.owe
  have e : Closing w' { s with th := l } = Closing w s := by simp only [Closing, m1]
  obtain ⟨g_below, g_bo, g_bc, g_og, g_cg, g_q, g_od, g_owe, g_cd, g_po, g_pc, g_lc⟩ := h
  rw [m2] at g_od g_owe g_lc
  rw [← e] at g_cd
  simp only [← e] at g_pc
  exact ⟨g_below, g_bo, g_bc, g_og, g_cg, g_q, g_od, g_owe, g_cd, g_po, g_pc, g_lc⟩

theorem Mv.hold {w w' : X} {s : St} {l : List Pc} (m : Mv w s.th w' l) (h : Hold w s) : Hold w' { s with th := l } := by
  simp only [Hold, m.ref, m.opn, m.owe] at h ⊢
  exact h

theorem Mv.park (p : Pc) (l : List Pc) : Mv (wt p) l {} (p :: l) := by
  have : (wt p).run = 0 ∧ (wt p).k7 = 0 ∧ (wt p).owe = 0 := by cases p <;> decide
  constructor <;> simp [cnt_cons, this] <;> omega

theorem Mv.take {p : Pc} {l : List Pc} {i : Nat} (e : l[i]? = some p) : Mv {} l (wt p) (l.eraseIdx i) := by
  have h1 : (wt p).run = 0 ∧ (wt p).k7 = 0 ∧ (wt p).owe = 0 := by cases p <;> decide
  have h2 : (wt p).rdL + (wt p).xmL ≤ (wt p).ll := by cases p <;> decide
  have h : ∀ f, cnt f l = cnt f (l.eraseIdx i) + f (wt p) := fun f => cnt_eraseIdx f e
  constructor <;> simp [h, h1, h2]

/-- Inside a step without the reference. -/
structure J0 (w : X) (s : St) : Prop where
  t : T w s
  c : C w s
  hi : H w s

theorem J.j0 {w : X} {s : St} (h : J w s) : J0 w s := ⟨h.t, h.c, h.hi⟩

theorem park_ok {p : Pc} {s : St} (h : J0 (wt p) s) : Ok (park p s) Inv :=
  ⟨_, rfl, .inl ⟨(Mv.park p s.th).t h.t, (Mv.park p s.th).c h.c, (Mv.park p s.th).h h.hi⟩⟩

/-- The last reference. -/
theorem T.last {w : X} {s : St} (h : T w s) (g : C w s) (e : s.ref = 1) (hw : 1 ≤ w.ref) (ho : w.owe = 0) :
    s.uf = true ∧ s.st = .closed ∧ (∀ p ∈ s.th, p.out = true) ∧ s.ll = .closed ∧ s.dPend = false ∧ s.tm.inHeap = false ∧
    s.dtm.inHeap = false ∧ cnt X.pre s.th = 0 ∧ w.opn = 0 ∧ w.ref = 1 := by
  have he := h.eq
  have hst : s.st = .closed := by
    cases e2 : s.st <;> simp [bst, e2] at he <;> first | rfl | omega
  have hu : s.uf = true := by
    cases e2 : s.uf
    · simp [e2] at he; omega
    · rfl
  have hd : s.dPend = false := by
    cases e2 : s.dPend
    · rfl
    · simp [e2] at he; omega
  have hh : ∀ (t : Tm) (n : Nat), TmOk t n → tmr t = 0 → t.inHeap = false := by
    intro t n h1 h2
    cases e3 : t.inHeap
    · rfl
    · simp only [tmr, e3, Bool.and_true] at h2
      cases e4 : t.done
      · have := (h1.heap e3 e4).1
        simp [this] at h2
      · simp [e4] at h2
  have hp := cnt_pre s.th
  refine ⟨hu, hst, ?_, g.ll1 hst, hd, hh _ _ h.tm (by omega), hh _ _ h.dtm (by omega), by omega, by omega, by omega⟩
  intro p hm
  have := of_cnt_zero (f := X.ref) (l := s.th) (by omega) p hm
  cases p <;> first | rfl | simp [wt] at this

theorem C.noDop {w : X} {s : St} (h : C w s) (e : s.dPend = false) : s.dOpen = false := by
  cases e2 : s.dOpen
  · rfl
  · have := (h.dop e2).2.1
    rw [e] at this
    cases this

theorem derefUnlock_fin {l k : Nat} {s : St} (h : J0 { ref := 1, ll := l, k7 := k } s) : Ok (derefUnlock s) Inv := by
  have hp := h.t.pos
  have hl := h.t.live
  unfold derefUnlock
  rw [if_neg (by simp [hl]; omega)]
  refine ⟨_, rfl, ?_⟩
  by_cases e : s.ref = 1
  · right
    obtain ⟨e1, e2, e3, e4, e5, e6, e7, e8, -, -⟩ := h.t.last h.c e (by simp) rfl
    refine ⟨by simp [e], by simp [e], e1, e3, e4, e5, e6, e7, e2, h.c.noDop e5, ?_⟩
    have hi := h.hi
    hgo hi
  · left
    refine ⟨⟨by simp [e], by simp; omega, ?_, h.t.tm, h.t.dtm⟩, ?_, ?_⟩
    · have := h.t.eq
      simp at this ⊢
      omega
    · have hc := h.c
      cgo hc
    · have hi := h.hi
      hgo hi

theorem derefUnlock_tm {k : Nat} {s : St} (h : J0 { ref := 1, tT := 1, k7 := k } s) :
    Ok (derefUnlock s >>= park .tRet) Inv := by
  have hp := h.t.pos
  have hl := h.t.live
  unfold derefUnlock
  rw [if_neg (by simp [hl]; omega)]
  simp only [Option.bind_eq_bind, Option.bind_some]
  by_cases e : s.ref = 1
  · refine ⟨_, rfl, .inr ?_⟩
    obtain ⟨e1, e2, e3, e4, e5, e6, e7, e8, -, -⟩ := h.t.last h.c e (by simp) rfl
    refine ⟨by simp [e], by simp [e], e1, ?_, e4, e5, e6, e7, e2, h.c.noDop e5, ?_⟩
    · intro p hm
      rcases List.mem_cons.1 hm with rfl | hm
      · rfl
      · exact e3 p hm
    · have hi := h.hi
      have := cnt_cons X.pre .tRet s.th
      simp only [wt] at this
      hgo hi
  · refine park_ok ⟨⟨by simp [e], by simp; omega, ?_, h.t.tm, h.t.dtm⟩, ?_, ?_⟩
    · have := h.t.eq
      simp [wt] at this ⊢
      omega
    · have hc := h.c
      unfold wt
      cgo hc
    · have hi := h.hi
      unfold wt
      hgo hi

theorem derefUnlock_dtm {k : Nat} {s : St} (h : J0 { ref := 1, dT := 1, k7 := k } s) :
    Ok (derefUnlock s >>= park .dtRet) Inv := by
  have hp := h.t.pos
  have hl := h.t.live
  unfold derefUnlock
  rw [if_neg (by simp [hl]; omega)]
  simp only [Option.bind_eq_bind, Option.bind_some]
  by_cases e : s.ref = 1
  · refine ⟨_, rfl, .inr ?_⟩
    obtain ⟨e1, e2, e3, e4, e5, e6, e7, e8, -, -⟩ := h.t.last h.c e (by simp) rfl
    refine ⟨by simp [e], by simp [e], e1, ?_, e4, e5, e6, e7, e2, h.c.noDop e5, ?_⟩
    · intro p hm
      rcases List.mem_cons.1 hm with rfl | hm
      · rfl
      · exact e3 p hm
    · have hi := h.hi
      have := cnt_cons X.pre .dtRet s.th
      simp only [wt] at this
      hgo hi
  · refine park_ok ⟨⟨by simp [e], by simp; omega, ?_, h.t.tm, h.t.dtm⟩, ?_, ?_⟩
    · have := h.t.eq
      simp [wt] at this ⊢
      omega
    · have hc := h.c
      unfold wt
      cgo hc
    · have hi := h.hi
      unfold wt
      hgo hi

/-! ## Deferred operations -/

theorem H.read {w : X} {s : St} (h : H w s) (h1 : s.st ≠ .closed) (h2 : w.owe = 0) :
    H w { s with tr := .read :: s.tr } := by
  have h3 : lastClosed s.tr = false := by
    cases e : lastClosed s.tr
    · rfl
    · rcases h.lc e with h | h
      · exact absurd h h1
      · omega
  exact { h with
    below := fun e he => by
      rcases List.mem_cons.1 he with rfl | he
      · trivial
      · exact h.below e he
    q := ⟨h3, h.q⟩
    od := fun e i hi => by simpa using h.od e i hi
    owe := fun e => by rw [h2] at e; cases e
    cd := fun e i hi => by simpa using h.cd e i hi }

theorem H.write {w : X} {s : St} (h : H w s) (h1 : s.st ≠ .closed) (h2 : w.owe = 0) :
    H w { s with tr := .write :: s.tr } := by
  have h3 : lastClosed s.tr = false := by
    cases e : lastClosed s.tr
    · rfl
    · rcases h.lc e with h | h
      · exact absurd h h1
      · omega
  exact { h with
    below := fun e he => by
      rcases List.mem_cons.1 he with rfl | he
      · trivial
      · exact h.below e he
    q := ⟨h3, h.q⟩
    od := fun e i hi => by simpa using h.od e i hi
    owe := fun e => by rw [h2] at e; cases e
    cd := fun e i hi => by simpa using h.cd e i hi }

/-- Only `run`, `k7` and the like change, or flags that `T` and `H` do not look at. -/
macro "jgo" h:ident : tactic =>
  `(tactic| (refine ⟨?_, ?_, ?_, ?_⟩
             · exact { ($h).t with }
             · exact ($h).h
             · have hc := ($h).c
               cgo hc
             · exact { ($h).hi with }))

theorem dEnd_ok {a : Ans} (hcl : a.clOk = true) (k : Nat) {s : St} (h : J { ref := 1, k7 := 1 } s) :
    Ok (dEnd a k s) Inv := by
  unfold dEnd
  have : Ok (doIf (s.st ≠ .closed) (dPush a k) s) (J { ref := 1, k7 := 1 }) := by
    refine Ok.doIf h (fun e => ?_)
    unfold dPush
    refine (pushCheck_ok k h hcl (.inr (.inl ⟨by simp, rfl⟩)) (fun e2 => ?_)).bind (fun p hp => ?_)
    · simp at e; exact absurd e2 e
    · exact (setLlEnables_ok _ hp).imp (fun _ h => h.1)
  refine this.bind (fun s1 h1 => ?_)
  exact derefUnlock_fin h1.j0

theorem finishClose2_ok {w w' : X} {s : St} (h : T w s) (e1 : s.ref ≠ 1)
    (he : w.opn = w'.opn + 1 ∧ w.ref = w'.ref ∧ w.owe = w'.owe ∧ w.tT = w'.tT ∧ w.dT = w'.dT) :
    Ok (finishClose2 s) (fun s' => T w' s' ∧ ∃ r t u, s' = { s with ref := r, tm := t, dtm := u }) := by
  have hp := h.pos
  obtain ⟨h1, h2⟩ := h.tm.stopDone
  obtain ⟨h3, h4⟩ := h.dtm.stopDone
  obtain ⟨g1, g2, g3, g4, g5⟩ := he
  rw [g4] at h1
  rw [g5] at h3
  unfold finishClose2 deref
  rw [if_neg (by simp; omega)]
  refine ⟨_, rfl, ⟨h.live, by simp; omega, ?_, h1, h3⟩, _, _, _, rfl⟩
  have := h.eq
  rw [g1, g2, g3] at this
  simp only [h2, h4]
  rw [show s.ref - 1 + w'.owe = s.ref + w'.owe - 1 by omega]
  omega

theorem dCloseStep_ok {a : Ans} (hcl : a.clOk = true) (k : Nat) {s : St} (h : J { ref := 1, run := 1, k7 := 1 } s) :
    Ok (dCloseStep a k s) Inv := by
  unfold dCloseStep
  split
  · rename_i e
    simp only [Bool.and_eq_true, Bool.not_eq_true', Bool.or_eq_false_iff] at e
    obtain ⟨e1, e2, e3⟩ := e
    unfold finishClose
    rw [if_neg (show ¬({ s with dClose := false } : St).inXmit = true by simpa using e2)]
    by_cases e4 : s.dPend = true
    · rw [if_pos (show ({ s with dClose := false } : St).dPend = true from e4)]
      have : ({ s with dClose := true } : St) = s := by
        obtain ⟨_⟩ := s
        simp only at e1
        subst e1
        rfl
      simp only [Option.bind_eq_bind, Option.bind_some, Bool.false_eq_true, if_false, this]
      refine dEnd_ok hcl _ ?_
      jgo h
    · rw [if_neg (show ¬({ s with dClose := false } : St).dPend = true from e4),
        if_neg (show ¬({ s with dClose := false } : St).inRead = true by simpa using e3)]
      have t0 : T { ref := 1, run := 1, k7 := 1 } { s with dClose := false } := { h.t with }
      have h0 : Hold { ref := 1, run := 1, k7 := 1 } { s with dClose := false } := h.h
      have hst := (h.c.dcl e1).1
      have hb : bst s.st = 1 := by rcases hst with e | e <;> simp [bst, e]
      obtain ⟨s1, eh, t1, ⟨⟨r, l, t, p, c, rfl⟩, -⟩⟩ := hook_ok a k t0 h0
      have hc := h.c
      have hi := h.hi
      simp only [Option.bind_eq_bind, eh, Option.bind_some]
      have hT : T { ref := 1, opn := 1 } { s with ref := r, leak := l, tm := t, tsp := p, canWrite := c, dClose := false, st := .closed } := by
        refine ⟨t1.live, t1.pos, ?_, t1.tm, t1.dtm⟩
        have := t1.eq
        simp [hb, show bst .closed = 0 from rfl] at this ⊢
        omega
      split
      · rename_i e5
        simp only [Option.bind_some, if_true]
        refine park_ok ⟨{ hT with }, ?_, ?_⟩
        · unfold wt
          cgo hc
        · unfold wt
          hgo hi
      · rename_i e5
        refine Ok.bind (P := fun q => T { ref := 1, k7 := 1 } q.1 ∧ q.2 = false ∧ ∃ r t u, q.1 = { s with ref := r, leak := l, tm := t, tsp := p, canWrite := c, dClose := false, st := .closed, dtm := u }) ?_ (fun q hq => ?_)
        · have h9 : r ≠ 1 := by
            have := t1.eq
            simp [hb] at this
            omega
          refine (finishClose2_ok (w := { ref := 1, opn := 1 }) (w' := { ref := 1, k7 := 1 }) hT h9 ⟨rfl, rfl, rfl, rfl, rfl⟩).bind
            (fun s2 h2 => ?_)
          obtain ⟨t2, r2, t3, u, rfl⟩ := h2
          exact ⟨_, rfl, t2, rfl, _, _, _, rfl⟩
        · obtain ⟨q, f⟩ := q
          obtain ⟨t2, rfl, r2, t3, u, e9⟩ := hq
          simp only at e9 t2 ⊢
          subst e9
          simp only [Bool.false_eq_true, if_false]
          refine dEnd_ok hcl _ ⟨t2, ?_, ?_, ?_⟩
          · simp [Hold]; omega
          · cgo hc
          · hgo hi
  · rename_i e
    refine dEnd_ok hcl _ ?_
    have e : s.dClose = true → s.inXmit = true ∨ s.inRead = true := by
      intro h
      simp only [Bool.and_eq_true, Bool.not_eq_true', Bool.or_eq_false_iff, h, true_and, not_and] at e
      cases e1 : s.inXmit <;> simp [e1] at e ⊢
      exact e
    have h1 := cnt_ll s.th
    jgo h

end Gensio.Base
