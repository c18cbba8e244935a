import Verif.Model.LlFd

/-! Invariants of the descriptor layer, see `Verif.Model.LlFd`. -/

namespace Gensio.LlFd

def b2n (b : Bool) : Nat := if b then 1 else 0

@[simp] theorem b2n_true : b2n true = 1 := rfl
@[simp] theorem b2n_false : b2n false = 0 := rfl

/-! ## Kinds of threads -/

/-- Holds a reference of its own. -/
def Pc.ref : Pc → Bool
  | .rdIO => true
  | .rdCb _ => true
  | .wrCb _ k => k = .fin
  | .opCb _ k => k = .fin
  | _ => false

/-- In the runner. -/
def Pc.run : Pc → Bool
  | .run0 => true
  | .dfRd => true
  | .clCb => true
  | .opCb _ k => k = .runB || k = .runC
  | .wrCb _ k => k = .runB || k = .runC
  | _ => false

/-- In the runner after the check for the open. -/
def Pc.late : Pc → Bool
  | .dfRd => true
  | .clCb => true
  | .opCb _ k => k = .runB || k = .runC
  | .wrCb _ k => k = .runB || k = .runC
  | _ => false

def Pc.tm : Pc → Bool
  | .tm0 => true
  | _ => false

/-- Accounts for `in_read`. -/
def Pc.rd : Pc → Bool
  | .rdIO => true
  | .rdCb _ => true
  | .dfRd => true
  | _ => false

/-- Accounts for `in_write`. -/
def Pc.wr : Pc → Bool
  | .wrCb _ _ => true
  | _ => false

def Pc.cl : Pc → Bool
  | .cl0 => true
  | _ => false

def Pc.oc : Pc → Bool
  | .opCb _ _ => true
  | .clCb => true
  | _ => false

/-- In the open callback called by the runner. -/
def Pc.ob : Pc → Bool
  | .opCb _ k => k = .runB
  | _ => false

def Pc.cc : Pc → Bool
  | .clCb => true
  | _ => false

/-- In `fd_handle_incoming`. -/
def Pc.rt : Pc → Bool
  | .rd0 => true
  | .rdIO => true
  | .rdCb _ => true
  | _ => false

def Pc.xo : Pc → Bool
  | .exOp => true
  | _ => false

/-- Reading from the descriptor. -/
def Pc.io : Pc → Bool
  | .rdIO => true
  | _ => false

/-- In the read callback called by the runner. -/
def Pc.df : Pc → Bool
  | .dfRd => true
  | _ => false

/-- Shape of a thread: handlers have their descriptor, and the callbacks return where they can. -/
def Th.ok (t : Th) : Prop :=
  match t.pc with
  | .rd0 | .rdIO | .rdCb _ | .wr0 | .ex0 | .exOp => t.h.isSome
  | .wrCb i k => t.h = some i ∧ (k = .fin ∨ k = .plain)
  | .opCb _ k => k = .fin ∨ k = .runB
  | _ => t.h = none

/-- How many threads of each kind there are. -/
structure X where
  ref : Nat := 0
  run : Nat := 0
  late : Nat := 0
  tm : Nat := 0
  rd : Nat := 0
  wr : Nat := 0
  cl : Nat := 0
  oc : Nat := 0
  ob : Nat := 0
  cc : Nat := 0
  rt : Nat := 0
  xo : Nat := 0
  nh : Nat := 0
  io : Nat := 0
  df : Nat := 0

/-- One thread. -/
def xOf (t : Th) : X where
  ref := b2n t.pc.ref
  run := b2n t.pc.run
  late := b2n t.pc.late
  tm := b2n t.pc.tm
  rd := b2n t.pc.rd
  wr := b2n t.pc.wr
  cl := b2n t.pc.cl
  oc := b2n t.pc.oc
  ob := b2n t.pc.ob
  cc := b2n t.pc.cc
  rt := b2n t.pc.rt
  xo := b2n t.pc.xo
  nh := b2n t.h.isSome
  io := b2n t.pc.io
  df := b2n t.pc.df

def X.add (a b : X) : X where
  ref := a.ref + b.ref
  run := a.run + b.run
  late := a.late + b.late
  tm := a.tm + b.tm
  rd := a.rd + b.rd
  wr := a.wr + b.wr
  cl := a.cl + b.cl
  oc := a.oc + b.oc
  ob := a.ob + b.ob
  cc := a.cc + b.cc
  rt := a.rt + b.rt
  xo := a.xo + b.xo
  nh := a.nh + b.nh
  io := a.io + b.io
  df := a.df + b.df

def tot : List Th → X
  | [] => {}
  | t :: l => (xOf t).add (tot l)

theorem X.add_left_comm (a b c : X) : a.add (b.add c) = b.add (a.add c) := by
  simp only [X.add, X.mk.injEq]; omega

/-- Counting with one thread taken out. -/
theorem tot_eraseIdx : ∀ (l : List Th) (k : Nat) (t : Th), l[k]? = some t → tot l = (xOf t).add (tot (l.eraseIdx k))
  | [], k, t, h => by simp at h
  | a :: l, 0, t, h => by simp at h; subst h; simp [tot]
  | a :: l, k + 1, t, h => by
    have := tot_eraseIdx l k t (by simpa using h)
    simp only [List.eraseIdx_cons_succ, tot, this, X.add_left_comm]

theorem nh_zero : ∀ {l : List Th}, (tot l).nh = 0 → ∀ t ∈ l, t.h = none
  | [], _, t, ht => by simp at ht
  | a :: l, h, t, ht => by
    simp only [tot, X.add, xOf] at h
    rcases List.mem_cons.1 ht with rfl | ht
    · cases e : t.h with
      | none => rfl
      | some i => simp [e] at h
    · exact nh_zero (by omega) t ht

theorem nh_zero' : ∀ {l : List Th}, (∀ t ∈ l, t.h = none) → (tot l).nh = 0
  | [], _ => rfl
  | a :: l, h => by
    have := nh_zero' (l := l) (fun t ht => h t (List.mem_cons_of_mem _ ht))
    have ha := h a List.mem_cons_self
    simp [tot, X.add, xOf, ha, this]

/-- The descriptor in use. -/
def cur (s : St) : Iod := match s.iod with
  | some i => s.iods i
  | none => {}

def isOpenAcc (m : Nat) : Ev → Bool
  | .openAcc k => k = m
  | _ => false
def isOpenDone (m : Nat) : Ev → Bool
  | .openDone k _ => k = m
  | _ => false
def isCloseAcc (m : Nat) : Ev → Bool
  | .closeAcc k => k = m
  | _ => false
def isCloseDone (m : Nat) : Ev → Bool
  | .closeDone k => k = m
  | _ => false

/-- In an open that is not reported, by the state. -/
def opn (st : FdSt) (dOpen : Bool) : Bool := st = .inOpen || st = .inOpenRetry || st = .openErrWait || dOpen

/-- Accounting.  `k` counts the threads and `d` is the descriptor. -/
structure Core (k : X) (d : Iod) (s : St) : Prop where
  refc : s.ref = b2n (!s.freed) + b2n s.iod.isSome + b2n s.dClose + k.cc + b2n s.defPend + b2n (s.tm ≠ .stopped) + k.ref
  dead : s.dead = (s.ref == 0)
  run : b2n s.runQ + k.run = b2n s.defPend
  tmr : b2n s.tmRun + k.tm = b2n (s.tm ≠ .stopped)
  tmRun : s.tmRun = true → s.tm = .running
  rdc : k.rd = b2n s.inRd
  wrc : k.wr = b2n s.inWr
  data : s.recvd = s.taken ++ s.buf
  hreg : 0 < k.nh → s.iod.isSome = true ∧ (d.reg = .active ∨ d.reg = .clearing)
  op : opening s.ev = opn s.st s.dOpen
  cls : closing s.ev = s.closeDone.isSome
  clr : s.closeDone.isSome = true → s.closeReq = true ∧ (s.st = .inClose ∨ s.st = .closed) ∧
    (s.iod.isSome = true ∨ s.dClose = true)
  icl : s.st = .inClose → s.closeReq = true ∨ s.freed = true
  oerr : s.dOpen = true ∨ s.st = .openErrWait → s.openErr ≠ 0
  dOp : s.dOpen = true → s.defPend = true ∧ ((s.st = .inClose ∧ s.closeDone.isSome = true) ∨
    (s.st = .openErrWait ∧ s.iod.isSome = false))
  dCl : s.dClose = true → s.defPend = true ∧ s.iod.isSome = false
  dRd : s.dRead = true → s.defPend = true ∧ opn s.st s.dOpen = false ∧ s.st ≠ .closed
  dEx : s.dExc = false
  late : 0 < k.late → s.dOpen = false ∧ s.st ≠ .inOpen ∧ s.st ≠ .inOpenRetry ∧ s.st ≠ .openErrWait
  clcb : 0 < k.cc → s.dClose = false ∧ s.iod.isSome = false ∧ s.st = .closed ∧ s.dRead = false
  pAct : s.iod.isSome = true → d.reg = .active → (s.st = .inOpen ∨ s.st = .opened ∨ s.st = .errWait) ∧ s.dOpen = false ∧ k.cl = 0
  pClr : s.iod.isSome = true → d.reg = .clearing → (s.st = .inOpenRetry ∨ s.st = .openErrWait ∨ s.st = .inClose ∨
    (s.st = .closed ∧ s.closeDone.isSome = true)) ∧ k.cl = 0
  pCld : s.iod.isSome = true → d.reg = .cleared → (k.cl = 1 ∧ (s.st = .inOpenRetry ∨ s.st = .openErrWait ∨ s.st = .inClose ∨
    (s.st = .closed ∧ s.closeDone.isSome = true))) ∨ (k.cl = 0 ∧ s.st = .inClose ∧ s.dOpen = false ∧
    (s.tm = .running ∨ s.tm = .restart))
  pSome : s.iod.isSome = true → d.reg ≠ .none_
  pNone : s.iod.isSome = false → k.cl = 0 ∧
    ((s.dClose = true ∧ ((s.st = .openErrWait ∧ s.dOpen = true) ∨ s.st = .inClose ∨
      (s.st = .closed ∧ s.dOpen = false ∧ (s.closeDone.isSome = true ∨ 0 < k.ob)))) ∨
    (s.dClose = false ∧ s.st = .closed ∧ s.dOpen = false))
  rtT : 0 < k.rt → opn s.st s.dOpen = false ∧ s.st ≠ .closed
  xoT : 0 < k.xo + k.wr → s.st ≠ .inOpen ∧ s.st ≠ .inOpenRetry
  rdArm : s.iod.isSome = true → d.reg = .active → d.rd = true → s.st = .opened ∨ s.st = .errWait
  rdE : s.rdEn = true → opn s.st s.dOpen = false ∧ (s.st = .closed → s.iod.isSome = false)
  armR : s.st = .opened → s.rdEn = true → s.inRd = false → s.buf = [] → d.rd = true ∨ 0 < k.oc ∨ s.defPend = true
  armD : s.st = .opened → s.rdEn = true → s.inRd = false → s.buf ≠ [] → s.dRead = true
  armW : s.st = .opened → s.wrEn = true → s.inWr = false → d.wr = true ∨ 0 < k.oc ∨ s.defPend = true
  armO : s.st = .inOpen → d.wr = true
  ioB : 0 < k.io → s.buf = []
  dfT : 0 < k.df → opn s.st s.dOpen = false ∧ s.st ≠ .closed
  tmC : s.tm = .running ∨ s.tm = .restart → s.st = .inOpen ∨ s.st = .opened ∨ s.st = .errWait ∨
    (s.st = .inClose ∧ s.iod.isSome = true ∧ d.reg = .cleared ∧ k.cl = 0)
  frC : s.freed = true → s.st = .inClose ∨ s.st = .closed
  slo : s.slow = false → opn s.st s.dOpen = false ∧ (s.st = .closed → s.iod.isSome = false)

/-- The threads. -/
def Lst (s : St) : Prop := ∀ t ∈ s.th, t.ok ∧ (t.h = none ∨ t.h = s.iod)

/-- The descriptors. -/
structure Desc (s : St) : Prop where
  oth : ∀ j, s.iod ≠ some j → (s.iods j).reg ≠ .active ∧ (s.iods j).reg ≠ .clearing
  leak : ∀ j, j < s.nIod → s.iod ≠ some j → (s.iods j).isClosed = true
  lt : ∀ j, s.iod = some j → j < s.nIod ∧ (s.iods j).isClosed = false

/-- The history. -/
structure Hist (s : St) : Prop where
  num : opening s.ev = true → s.openDone = some (s.nOpen - 1) ∧ 0 < s.nOpen
  opens : ∀ m, s.ev.countP (isOpenDone m) + b2n (opening s.ev && (s.nOpen == m + 1)) = s.ev.countP (isOpenAcc m)
  openLt : ∀ m, s.ev.countP (isOpenAcc m) ≤ b2n (m < s.nOpen)
  cnum : closing s.ev = true → s.closeDone = some (s.nClose - 1) ∧ 0 < s.nClose
  closes : ∀ m, s.ev.countP (isCloseDone m) + b2n (closing s.ev && (s.nClose == m + 1)) = s.ev.countP (isCloseAcc m)
  closeLt : ∀ m, s.ev.countP (isCloseAcc m) ≤ b2n (m < s.nClose)
  ord : ordered s.ev

/-- The invariant, with a thread taken out that counts as `x`. -/
structure Inv (x : X) (s : St) : Prop where
  core : Core (x.add (tot s.th)) (cur s) s
  lst : Lst s
  desc : Desc s
  hist : Hist s

/-- No thread. -/
def x0 : X := {}

theorem x0_add (a : X) : x0.add a = a := by simp [x0, X.add]

theorem Inv.take {s : St} {k : Nat} {t : Th} (h : Inv x0 s) (e : s.th[k]? = some t) :
    Inv (xOf t) { s with th := s.th.eraseIdx k } ∧ t.ok ∧ (t.h = none ∨ t.h = s.iod) := by
  obtain ⟨a, b, c, d⟩ := h
  rw [x0_add, tot_eraseIdx _ _ _ e] at a
  refine ⟨⟨{ a with }, fun u hu => b u (List.mem_of_mem_eraseIdx hu), { c with }, { d with }⟩, b t (List.mem_of_getElem? e)⟩

theorem Inv.put {s : St} {pc : Pc} {hd : Option Nat} (h : Inv (xOf ⟨pc, hd⟩) s) (ok : Th.ok ⟨pc, hd⟩)
    (hh : hd = none ∨ hd = s.iod) : Inv x0 (s.push pc hd) := by
  obtain ⟨a, b, c, d⟩ := h
  refine ⟨?_, ?_, { c with }, { d with }⟩
  · rw [x0_add]; exact { a with }
  · intro t ht
    rcases List.mem_cons.1 ht with rfl | ht
    · exact ⟨ok, hh⟩
    · exact b t ht

/-- `fd_deref_and_unlock` of a reference held by the thread. -/
theorem Core.derefUnlock {k : X} {d : Iod} {s : St} (h : Core { k with ref := k.ref + 1 } d s) :
    ∃ s', derefUnlock s = some s' ∧ s' = { s with ref := s.ref - 1, dead := s.dead || s.ref == 1 } ∧ Core k d s' := by
  obtain ⟨h1, h2, h3, h4, h5, h6, h7, h8, h9, h10, h11, h12, h13, h14, h15, h16, h17, h18, h19, h20, h21, h22, h23, h24, h25, h26,
    h27, h28, h29, h30, h31, h32, h33, h34, h35, h36, h37⟩ := h
  have r : s.ref > 0 := by dsimp only at h1; omega
  refine ⟨_, if_pos r, rfl, ?_⟩
  constructor <;> dsimp only at * <;> first | assumption | grind

theorem Inv.derefUnlock {x : X} {s : St} (h : Inv { x with ref := x.ref + 1 } s) :
    ∃ s', derefUnlock s = some s' ∧ Inv x s' := by
  obtain ⟨a, b, c, d⟩ := h
  have a' : Core { x.add (tot s.th) with ref := (x.add (tot s.th)).ref + 1 } (cur s) s := by
    have e : X.add { x with ref := x.ref + 1 } (tot s.th) = { x.add (tot s.th) with ref := (x.add (tot s.th)).ref + 1 } := by
      simp only [X.add, X.mk.injEq, and_true]; omega
    rw [← e]; exact a
  obtain ⟨s', e, rfl, a⟩ := a'.derefUnlock
  exact ⟨_, e, a, b, { c with }, { d with }⟩

theorem oc_zero : ∀ {l : List Th}, l.all (fun t => !t.inOC) = true → (tot l).oc = 0
  | [], _ => rfl
  | t :: l, h => by
    simp only [List.all_cons, Bool.and_eq_true] at h
    have := oc_zero h.2
    have h1 : b2n t.pc.oc = 0 := by
      have := h.1
      cases t with | mk pc h => cases pc <;> simp_all [Pc.oc, Th.inOC, b2n]
    simp only [tot, X.add, xOf]; omega

/-- Inequalities between the counts. -/
structure Cnt (m : X) : Prop where
  ob : m.ob ≤ m.oc
  df : m.df ≤ m.run
  rtnh : m.rt + m.xo + m.wr ≤ m.nh
  iord : m.io ≤ m.rd
  late : m.late ≤ m.oc + m.df
  ccoc : m.cc ≤ m.oc

theorem cnt_one {t : Th} (ok : t.ok) : Cnt (xOf t) := by
  obtain ⟨pc, h⟩ := t
  cases pc <;> simp only [Th.ok] at ok <;> constructor <;>
    simp_all [xOf, Pc.ob, Pc.oc, Pc.df, Pc.run, Pc.rt, Pc.xo, Pc.wr, Pc.io, Pc.rd, Pc.late, Pc.cc, b2n] <;> grind

theorem cnt_ok : ∀ {l : List Th}, (∀ t ∈ l, t.ok) → Cnt (tot l)
  | [], _ => by constructor <;> simp [tot]
  | t :: l, ok => by
    obtain ⟨q1, q2, q3, q4, q5, q6⟩ := cnt_ok (l := l) (fun u hu => ok u (List.mem_cons_of_mem _ hu))
    obtain ⟨r1, r2, r3, r4, r5, r6⟩ := cnt_one (ok t List.mem_cons_self)
    constructor <;> simp only [tot, X.add] <;> omega

theorem Inv.cnt {x : X} {s : St} (h : Inv x s) : Cnt (tot s.th) := cnt_ok (fun t ht => (h.lst t ht).1)

/-! ## Basic functions -/

/-- The handlers enabled for descriptor `i` may differ between `f` and `g`, nothing else. -/
structure Upd (i : Nat) (f g : Nat → Iod) : Prop where
  oth : ∀ j, j ≠ i → f j = g j
  reg : (f i).reg = (g i).reg
  cl : (f i).isClosed = (g i).isClosed

theorem Upd.refl (i : Nat) (f : Nat → Iod) : Upd i f f := ⟨fun _ _ => rfl, rfl, rfl⟩
theorem Upd.trans {i : Nat} {f g h : Nat → Iod} (a : Upd i f g) (b : Upd i g h) : Upd i f h :=
  ⟨fun j hj => (a.oth j hj).trans (b.oth j hj), a.reg.trans b.reg, a.cl.trans b.cl⟩

theorem setRd_ok {s : St} {i : Nat} (b : Bool) (h : (s.iods i).isClosed = false) :
    ∃ f, setRd s (some i) b = some { s with iods := f } ∧ Upd i f s.iods ∧ (f i).wr = (s.iods i).wr ∧
      (f i).rd = if (s.iods i).reg = .active then b else (s.iods i).rd := by
  unfold setRd
  dsimp only
  rw [if_neg (by simp [h])]
  by_cases r : (s.iods i).reg = .active
  · rw [if_pos r]
    exact ⟨_, rfl, ⟨fun j hj => if_neg hj, by simp, by simp⟩, by simp, by simp [r]⟩
  · rw [if_neg r]
    exact ⟨s.iods, rfl, Upd.refl _ _, rfl, by simp [r]⟩

theorem setWr_ok {s : St} {i : Nat} (b : Bool) (h : (s.iods i).isClosed = false) :
    ∃ f, setWr s (some i) b = some { s with iods := f } ∧ Upd i f s.iods ∧ (f i).rd = (s.iods i).rd ∧
      (f i).wr = if (s.iods i).reg = .active then b else (s.iods i).wr := by
  unfold setWr
  dsimp only
  rw [if_neg (by simp [h])]
  by_cases r : (s.iods i).reg = .active
  · rw [if_pos r]
    exact ⟨_, rfl, ⟨fun j hj => if_neg hj, by simp, by simp⟩, by simp, by simp [r]⟩
  · rw [if_neg r]
    exact ⟨s.iods, rfl, Upd.refl _ _, rfl, by simp [r]⟩

theorem setEx_ok {s : St} {i : Nat} (b : Bool) (h : (s.iods i).isClosed = false) :
    ∃ f, setEx s (some i) b = some { s with iods := f } ∧ Upd i f s.iods ∧ (f i).rd = (s.iods i).rd ∧
      (f i).wr = (s.iods i).wr := by
  unfold setEx
  dsimp only
  rw [if_neg (by simp [h])]
  by_cases r : (s.iods i).reg = .active
  · rw [if_pos r]
    exact ⟨_, rfl, ⟨fun j hj => if_neg hj, by simp, by simp⟩, by simp, by simp [r]⟩
  · rw [if_neg r]
    exact ⟨s.iods, rfl, Upd.refl _ _, rfl, by simp [r]⟩

/-- Setting the write and the except handler. -/
theorem wrEx_ok {s : St} {i : Nat} (b b' : Bool) (h : (s.iods i).isClosed = false) :
    ∃ f, (setWr s (some i) b).bind (fun s => setEx s (some i) b') = some { s with iods := f } ∧ Upd i f s.iods ∧
      (f i).rd = (s.iods i).rd ∧ (f i).wr = if (s.iods i).reg = .active then b else (s.iods i).wr := by
  obtain ⟨f, e, u, a1, a2⟩ := setWr_ok (s := s) b h
  obtain ⟨g, e', u', a1', a2'⟩ := setEx_ok (s := { s with iods := f }) (i := i) b' (by rw [u.cl]; exact h)
  rw [e]
  exact ⟨g, e', u'.trans u, a1'.trans a1, a2'.trans a2⟩

/-- Setting the read and the except handler. -/
theorem rdEx_ok {s : St} {i : Nat} (b b' : Bool) (h : (s.iods i).isClosed = false) :
    ∃ f, (setRd s (some i) b).bind (fun s => setEx s (some i) b') = some { s with iods := f } ∧ Upd i f s.iods ∧
      (f i).wr = (s.iods i).wr ∧ (f i).rd = if (s.iods i).reg = .active then b else (s.iods i).rd := by
  obtain ⟨f, e, u, a1, a2⟩ := setRd_ok (s := s) b h
  obtain ⟨g, e', u', a1', a2'⟩ := setEx_ok (s := { s with iods := f }) (i := i) b' (by rw [u.cl]; exact h)
  rw [e]
  exact ⟨g, e', u'.trans u, a2'.trans a1, a1'.trans a2⟩

/-- Timer functions change the timer and the reference for it. -/
structure TmUpd (s : St) (r : Nat) (t : TSt) (b : Bool) : Prop where
  ref : r + b2n (s.tm ≠ .stopped) = s.ref + b2n (t ≠ .stopped)
  run : b2n (t ≠ .stopped) + b2n s.tmRun = b2n (s.tm ≠ .stopped) + b2n b
  ok : b = true → t = .running

theorem stopTimer_ok {s : St} (h : s.tmRun = true → s.tm = .running) (hr : 1 < s.ref) :
    ∃ r t b, stopTimer s = some { s with ref := r, tm := t, tmRun := b } ∧ TmUpd s r t b := by
  unfold stopTimer
  split
  · rename_i e; exact ⟨_, _, _, rfl, by constructor <;> simp_all⟩
  · rename_i e
    split
    · rename_i e'
      refine ⟨s.ref - 1, .stopped, false, ?_, by constructor <;> simp [b2n, *]; omega⟩
      simp [deref, hr]
    · rename_i e'; exact ⟨s.ref, .stopping, s.tmRun, rfl, by constructor <;> simp_all⟩
  · rename_i e; exact ⟨_, _, _, rfl, by constructor <;> simp_all⟩
  · rename_i e
    refine ⟨s.ref, .stopping, s.tmRun, rfl, ?_⟩
    have : s.tmRun = false := by cases h' : s.tmRun with | false => rfl | true => simp [h h'] at e
    constructor <;> simp_all

theorem startTimer_ok {s : St} (h : s.tmRun = true → s.tm = .running) (hr : 0 < s.ref) :
    ∃ r t b, startTimer s = some { s with ref := r, tm := t, tmRun := b } ∧ TmUpd s r t b ∧ (t = .running ∨ t = .restart) := by
  have nr : s.tm ≠ .running → s.tmRun = false := by
    intro e; cases h' : s.tmRun with | false => rfl | true => exact absurd (h h') e
  unfold startTimer
  split
  · rename_i e
    have := nr (by simp [e])
    refine ⟨s.ref + 1, .running, true, ?_, by constructor <;> simp [b2n, *], by simp⟩
    simp [ref, hr, timerOn, this]
  · rename_i e
    split
    · rename_i e'
      refine ⟨s.ref, .running, true, ?_, by constructor <;> simp [b2n, *], by simp⟩
      simp [timerOn]
    · rename_i e'
      exact ⟨s.ref, .restart, s.tmRun, rfl, by constructor <;> simp_all, by simp⟩
  · rename_i e
    have := nr (by simp [e])
    exact ⟨s.ref, .restart, s.tmRun, rfl, by constructor <;> simp_all, by simp⟩
  · rename_i e
    have := nr (by simp [e])
    exact ⟨s.ref, s.tm, s.tmRun, rfl, by constructor <;> simp_all, .inr e⟩

theorem Desc.upd {s : St} {i : Nat} {f : Nat → Iod} (h : Desc s) (e : s.iod = some i) (u : Upd i f s.iods) :
    Desc { s with iods := f } := by
  obtain ⟨a, b, c⟩ := h
  constructor
  · intro j hj
    have : j ≠ i := fun h => hj (by rw [h]; exact e)
    show (f j).reg ≠ _ ∧ (f j).reg ≠ _
    rw [u.oth j this]; exact a j hj
  · intro j hj hj'
    have : j ≠ i := fun h => hj' (by rw [h]; exact e)
    show (f j).isClosed = _
    rw [u.oth j this]; exact b j hj hj'
  · intro j hj
    have : j = i := by have h : s.iod = some j := hj; rw [e] at h; simpa using h.symm
    subst this
    show _ ∧ (f j).isClosed = _
    rw [u.cl]; exact c j hj

theorem cur_some {s : St} {i : Nat} (e : s.iod = some i) : cur s = s.iods i := by simp [cur, e]
theorem cur_none {s : St} (e : s.iod = none) : cur s = {} := by simp [cur, e]

/-- A step succeeds and keeps the invariant. -/
def Ok (o : Option St) : Prop := ∃ s, o = some s ∧ Inv x0 s

/-- Everything but `Core` from the parts of the state that it is about. -/
theorem Inv.frame {x x' : X} {s s' : St} (h : Inv x s) (hth : s'.th = s.th) (hi : s'.iod = s.iod) (hd : s'.iods = s.iods)
    (hn : s'.nIod = s.nIod) (h1 : s'.ev = s.ev) (h2 : s'.openDone = s.openDone) (h3 : s'.nOpen = s.nOpen)
    (h4 : s'.closeDone = s.closeDone) (h5 : s'.nClose = s.nClose) (c : Core (x'.add (tot s.th)) (cur s) s') : Inv x' s' := by
  obtain ⟨a, b, ⟨d1, d2, d3⟩, ⟨e1, e2, e3, e4, e5, e6⟩⟩ := h
  have hc : cur s' = cur s := by simp only [cur, hi, hd]
  refine ⟨by rw [hc, hth]; exact c, by intro t ht; rw [hth] at ht; rw [hi]; exact b t ht, ?_, ?_⟩
  · constructor <;> simp only [hi, hd, hn] <;> assumption
  · constructor <;> simp only [h1, h2, h3, h4, h5] <;> assumption

/-- The same with the handlers of the descriptor changed. -/
theorem Inv.frameU {x x' : X} {s s' : St} {i : Nat} (h : Inv x s) (hi : s.iod = some i) (u : Upd i s'.iods s.iods)
    (hth : s'.th = s.th) (hi' : s'.iod = s.iod)
    (hn : s'.nIod = s.nIod) (h1 : s'.ev = s.ev) (h2 : s'.openDone = s.openDone) (h3 : s'.nOpen = s.nOpen)
    (h4 : s'.closeDone = s.closeDone) (h5 : s'.nClose = s.nClose) (c : Core (x'.add (tot s.th)) (s'.iods i) s') : Inv x' s' := by
  obtain ⟨a, b, d, ⟨e1, e2, e3, e4, e5, e6⟩⟩ := h
  have hc : cur s' = s'.iods i := by simp only [cur, hi', hi]
  refine ⟨by rw [hc, hth]; exact c, by intro t ht; rw [hth] at ht; rw [hi']; exact b t ht, ?_, ?_⟩
  · obtain ⟨a1, a2, a3⟩ := d.upd hi u
    constructor <;> simp only [hi', hn] <;> assumption
  · constructor <;> simp only [h1, h2, h3, h4, h5] <;> assumption

theorem Inv.open_ {x : X} {s : St} {i : Nat} (h : Inv x s) (hi : s.iod = some i) :
    (s.iods i).isClosed = false := (h.desc.lt i hi).2

/-! ## The runner -/

def xR (o : Nat) : X := { run := 1, ob := o }

/-- Proving `Core` after a change. -/
macro "leaf" : tactic => `(tactic| (constructor <;>
  (try simp only [X.add, xOf, x0, xR, Pc.ref, Pc.run, Pc.late, Pc.tm, Pc.rd, Pc.wr, Pc.cl, Pc.oc, Pc.ob, Pc.cc, Pc.rt, Pc.xo,
    Pc.io, Pc.df, b2n_true, b2n_false, Option.isSome_some, Option.isSome_none, decide_true, decide_false, reduceCtorEq, Bool.or_self, Bool.or_false, Bool.or_true,
    Bool.true_or, Bool.false_or, if_true, if_false, false_or, or_false, true_or, or_true, forall_const, false_implies] at *) <;>
  first | assumption | grind [opn, b2n, opening, closing]))

theorem Core.active {k : X} {d : Iod} {s : St} (h : Core k d s) (e : s.st = .opened ∨ s.st = .inOpen ∨ s.st = .errWait) :
    s.iod.isSome = true ∧ d.reg = .active := by
  have h1 := h.pNone; have h2 := h.pClr; have h3 := h.pCld; have h4 := h.pSome
  cases hi : s.iod.isSome with
  | false => rcases e with e | e | e <;> simp [hi, e] at h1
  | true => cases hr : d.reg <;> rcases e with e | e | e <;> simp_all

theorem Inv.active {x : X} {s : St} (h : Inv x s) (e : s.st = .opened ∨ s.st = .inOpen ∨ s.st = .errWait) :
    ∃ i, s.iod = some i ∧ (s.iods i).reg = .active ∧ (s.iods i).isClosed = false := by
  obtain ⟨a, b⟩ := h.core.active e
  obtain ⟨i, hi⟩ := Option.isSome_iff_exists.1 a
  rw [cur_some hi] at b
  exact ⟨i, hi, b, h.open_ hi⟩

theorem Inv.core' {x : X} {s : St} {i : Nat} (h : Inv x s) (hi : s.iod = some i) : Core (x.add (tot s.th)) (s.iods i) s := by
  have := h.core; rwa [cur_some hi] at this

theorem runE_ok {o : Nat} {s : St} (h : Inv (xR o) s) (h1 : s.dOpen = false) (h2 : s.dClose = false) (h3 : s.dRead = false) :
    Ok (runE s) := by
  by_cases e : s.st = .opened
  · obtain ⟨i, hi, hreg, hc⟩ := h.active (Or.inl e)
    obtain ⟨f1, e1, u1, a1, b1⟩ := setRd_ok (s := { s with defPend := false }) (i := i) s.rdEn hc
    obtain ⟨f2, e2, u2, a2, b2⟩ := setEx_ok (s := { s with defPend := false, iods := f1 }) (i := i) (s.rdEn || s.wrEn)
      (by rw [u1.cl]; exact hc)
    have u21 := u2.trans u1
    obtain ⟨f3, e3, u3, a3, b3⟩ := setWr_ok (s := { s with defPend := false, iods := f2 }) (i := i) s.wrEn
      (by rw [u21.cl]; exact hc)
    have k : Inv { ref := 1 } { s with defPend := false, iods := f3 } := by
      refine h.frameU hi (u3.trans u21) rfl rfl rfl rfl rfl rfl rfl rfl ?_
      have c := h.core' hi
      have q := h.cnt
      have r1 := u1.reg; have r2 := u2.reg; have r3 := u3.reg
      dsimp only at *
      generalize tot s.th = m at *
      cases c; cases q
      leaf
    obtain ⟨s', e', k'⟩ := Inv.derefUnlock (x := x0) k
    refine ⟨s', ?_, k'⟩
    simp only [runE, e, if_true, hi, Option.bind_eq_bind] at e1 e2 e3 e' ⊢
    simp only [e1, e2, e3, e', Option.bind_some]
  · have k : Inv { ref := 1 } { s with defPend := false } := by
      refine h.frame rfl rfl rfl rfl rfl rfl rfl rfl rfl ?_
      have c := h.core
      have q := h.cnt
      generalize tot s.th = m at *
      generalize cur s = d at *
      cases c; cases q
      leaf
    obtain ⟨s', e', k'⟩ := Inv.derefUnlock (x := x0) k
    exact ⟨s', by simpa [runE, e] using e', k'⟩

/-! ## The history -/

theorem Hist.read {s : St} (h : Hist s) (e : Nat) (l : List UInt8) (o : opening s.ev = false) (he : e ≠ 0 → l = []) :
    Hist (s.log (.read e l)) := by
  obtain ⟨h1, h2, h3, h4, h5, h6, h7⟩ := h
  refine ⟨?_, ?_, ?_, ?_, ?_, ?_, ⟨o, he, h7⟩⟩
  all_goals simpa [St.log, opening, closing, isOpenDone, isOpenAcc, isCloseDone, isCloseAcc, List.countP_cons]

theorem Hist.write {s : St} (h : Hist s) (o : opening s.ev = false) (c : closing s.ev = false) : Hist (s.log .write) := by
  obtain ⟨h1, h2, h3, h4, h5, h6, h7⟩ := h
  refine ⟨?_, ?_, ?_, ?_, ?_, ?_, ⟨o, c, h7⟩⟩
  all_goals simpa [St.log, opening, closing, isOpenDone, isOpenAcc, isCloseDone, isCloseAcc, List.countP_cons]

theorem Hist.openDone {s : St} {m : Nat} (h : Hist s) (o : opening s.ev = true) (e : s.openDone = some m) (err : Nat)
    (he : err = 0 → closing s.ev = false) :
    Hist { s with openDone := none, ev := .openDone m err :: s.ev } := by
  obtain ⟨h1, h2, h3, h4, h5, h6, h7⟩ := h
  obtain ⟨h1, h1'⟩ := h1 o
  rw [e] at h1
  simp only [Option.some.injEq] at h1
  refine ⟨?_, ?_, ?_, ?_, ?_, ?_, ⟨he, h7⟩⟩ <;> simp only [opening, closing, isOpenDone, isOpenAcc, isCloseDone, isCloseAcc, List.countP_cons]
  · simp
  · intro k
    have := h2 k
    simp only [o, Bool.true_and] at this
    by_cases hk : m = k
    · have e2 : s.nOpen = k + 1 := by omega
      simp [hk, e2] at this ⊢; omega
    · have e2 : (s.nOpen == k + 1) = false := by simp; omega
      rw [e2] at this
      simp [hk] at this ⊢; omega
  · simpa using h3
  · simpa using h4
  · simpa using h5
  · simpa using h6

theorem Hist.closeDone {s : St} {m : Nat} (h : Hist s) (o : closing s.ev = true) (e : s.closeDone = some m)
    (ho : opening s.ev = false) :
    Hist { s with closeDone := none, ev := .closeDone m :: s.ev } := by
  obtain ⟨h1, h2, h3, h4, h5, h6, h7⟩ := h
  obtain ⟨h4, h4'⟩ := h4 o
  rw [e] at h4
  simp only [Option.some.injEq] at h4
  refine ⟨?_, ?_, ?_, ?_, ?_, ?_, ⟨ho, h7⟩⟩ <;> simp only [opening, closing, isOpenDone, isOpenAcc, isCloseDone, isCloseAcc, List.countP_cons]
  · simpa using h1
  · simpa using h2
  · simpa using h3
  · simp
  · intro k
    have := h5 k
    simp only [o, Bool.true_and] at this
    by_cases hk : m = k
    · have e2 : s.nClose = k + 1 := by omega
      simp [hk, e2] at this ⊢; omega
    · have e2 : (s.nClose == k + 1) = false := by simp; omega
      rw [e2] at this
      simp [hk] at this ⊢; omega
  · simpa using h6

theorem Hist.openAcc {s : St} (h : Hist s) (o : opening s.ev = false) :
    Hist { s with openDone := some s.nOpen, nOpen := s.nOpen + 1, ev := .openAcc s.nOpen :: s.ev } := by
  obtain ⟨h1, h2, h3, h4, h5, h6, h7⟩ := h
  refine ⟨?_, ?_, ?_, ?_, ?_, ?_, h7⟩ <;> simp only [opening, closing, isOpenDone, isOpenAcc, isCloseDone, isCloseAcc, List.countP_cons]
  · simp
  · intro k
    have := h2 k
    have h3 := h3 k
    simp only [o, Bool.false_and] at this
    by_cases hk : s.nOpen = k
    · simp [hk] at this h3 ⊢; omega
    · have e2 : (s.nOpen + 1 == k + 1) = false := by simp; omega
      rw [e2]
      simp [hk] at this ⊢; omega
  · intro k
    have h3 := h3 k
    by_cases hk : s.nOpen = k
    · simp [hk] at h3 ⊢; omega
    · have : (k < s.nOpen + 1) = (k < s.nOpen) := by simp only [eq_iff_iff]; omega
      simp [hk, this] at h3 ⊢; omega
  · simpa using h4
  · simpa using h5
  · simpa using h6

theorem Hist.openNow {s : St} (h : Hist s) (o : opening s.ev = false) (d : Option Nat) :
    Hist { s with openDone := d, nOpen := s.nOpen + 1, ev := .openNow s.nOpen :: s.ev } := by
  obtain ⟨h1, h2, h3, h4, h5, h6, h7⟩ := h
  refine ⟨?_, ?_, ?_, ?_, ?_, ?_, h7⟩ <;> simp only [opening, closing, isOpenDone, isOpenAcc, isCloseDone, isCloseAcc, List.countP_cons]
  · simp [o]
  · intro k
    have := h2 k
    simp [o] at this ⊢; omega
  · intro k
    have h3 := h3 k
    have : b2n (decide (k < s.nOpen)) ≤ b2n (decide (k < s.nOpen + 1)) := by
      by_cases hk : k < s.nOpen
      · have : k < s.nOpen + 1 := by omega
        simp [hk, this]
      · simp [hk]
    simp at h3 ⊢; omega
  · simpa using h4
  · simpa using h5
  · simpa using h6

theorem Hist.closeAcc {s : St} (h : Hist s) (o : closing s.ev = false) :
    Hist { s with closeDone := some s.nClose, nClose := s.nClose + 1, ev := .closeAcc s.nClose :: s.ev } := by
  obtain ⟨h1, h2, h3, h4, h5, h6, h7⟩ := h
  refine ⟨?_, ?_, ?_, ?_, ?_, ?_, h7⟩ <;> simp only [opening, closing, isOpenDone, isOpenAcc, isCloseDone, isCloseAcc, List.countP_cons]
  · simpa using h1
  · simpa using h2
  · simpa using h3
  · simp
  · intro k
    have := h5 k
    have h6 := h6 k
    simp only [o, Bool.false_and] at this
    by_cases hk : s.nClose = k
    · simp [hk] at this h6 ⊢; omega
    · have e2 : (s.nClose + 1 == k + 1) = false := by simp; omega
      rw [e2]
      simp [hk] at this ⊢; omega
  · intro k
    have h6 := h6 k
    by_cases hk : s.nClose = k
    · simp [hk] at h6 ⊢; omega
    · have : (k < s.nClose + 1) = (k < s.nClose) := by simp only [eq_iff_iff]; omega
      simp [hk, this] at h6 ⊢; omega

/-- `Inv` for a state with the same descriptors and a thread more. -/
theorem Inv.pushF {x : X} {s s' : St} {pc : Pc} {hd : Option Nat} (h : Inv x s) (hth : s'.th = ⟨pc, hd⟩ :: s.th)
    (hi : s'.iod = s.iod) (hds : s'.iods = s.iods) (hn : s'.nIod = s.nIod) (hh : Hist s')
    (ok : Th.ok ⟨pc, hd⟩) (hd' : hd = none ∨ hd = s.iod)
    (c : Core ((xOf ⟨pc, hd⟩).add (tot s.th)) (cur s) s') : Inv x0 s' := by
  obtain ⟨a, b, ⟨d1, d2, d3⟩, _⟩ := h
  have hc : cur s' = cur s := by simp only [cur, hi, hds]
  refine ⟨by rw [hc, hth, x0_add]; exact c, ?_, by constructor <;> simp only [hi, hds, hn] <;> assumption, hh⟩
  intro t ht
  rw [hth] at ht
  rw [hi]
  rcases List.mem_cons.1 ht with rfl | ht
  · exact ⟨ok, hd'⟩
  · exact b t ht

theorem runD_ok {o : Nat} {s : St} (h : Inv (xR o) s) (h1 : s.dOpen = false) (h3 : s.dRead = false) : Ok (runD s) := by
  unfold runD
  by_cases e : s.dClose = true
  · rw [if_pos e]
    dsimp only
    split
    · rename_i m hm
      refine ⟨_, rfl, h.pushF (pc := .clCb) (hd := none) rfl rfl rfl rfl ?_ rfl (Or.inl rfl) ?_⟩
      · have hh := h.hist
        have hc : closing s.ev = true := by rw [h.core.cls, hm]; rfl
        have ho : opening s.ev = false := by
          rw [h.core.op]
          rcases (h.core.pNone (h.core.dCl e).2).2 with ⟨_, a | a | a⟩ | a
          · rw [h1] at a; simp at a
          · simp [opn, a, h1]
          · simp [opn, a]
          · simp [opn, a]
        exact { hh.closeDone hc hm ho with }
      · have c := h.core
        have q := h.cnt
        have e1 : opening (Ev.closeDone m :: s.ev) = opening s.ev := rfl
        have e2 : closing (Ev.closeDone m :: s.ev) = false := rfl
        generalize tot s.th = k at *
        generalize cur s = d at *
        simp only [St.push, St.log] at *
        cases c; cases q
        leaf
    · rename_i hm
      have r : s.ref > 1 := by
        have c1 := h.core.refc; have c2 := (h.core.dCl e).1
        simp only [e, c2, b2n_true] at c1; omega
      have k : Inv (xR o) { s with dClose := false, st := .closed, ref := s.ref - 1 } := by
        refine h.frame rfl rfl rfl rfl rfl rfl rfl rfl rfl ?_
        have c := h.core
        have q := h.cnt
        generalize tot s.th = k at *
        generalize cur s = d at *
        cases c; cases q
        leaf
      simp only [deref, if_pos r]
      exact runE_ok k h1 rfl h3
  · rw [if_neg e]
    exact runE_ok h h1 (by simpa using e) h3

theorem runC_ok {o : Nat} {s : St} (h : Inv (xR o) s) (h1 : s.dOpen = false) : Ok (runC s) := by
  unfold runC
  by_cases e : s.dRead = true
  · rw [if_pos e]
    dsimp only
    split
    · rename_i hm
      simp only [Bool.and_eq_true, Bool.not_eq_true', List.isEmpty_eq_false_iff] at hm
      refine ⟨_, rfl, h.pushF (pc := .dfRd) (hd := none) rfl rfl rfl rfl ?_ rfl (Or.inl rfl) ?_⟩
      · exact { h.hist.read 0 s.buf (by rw [h.core.op]; exact (h.core.dRd e).2.1) (fun x => absurd rfl x) with }
      · have c := h.core
        have q := h.cnt
        have e1 : opening (Ev.read 0 s.buf :: s.ev) = opening s.ev := rfl
        have e2 : closing (Ev.read 0 s.buf :: s.ev) = closing s.ev := rfl
        generalize tot s.th = k at *
        generalize cur s = d at *
        simp only [St.push, St.log] at *
        cases c; cases q
        leaf
    · rename_i hm
      simp only [Bool.and_eq_true, Bool.not_eq_true', List.isEmpty_eq_false_iff] at hm
      refine runD_ok (o := o) ?_ h1 rfl
      refine h.frame rfl rfl rfl rfl rfl rfl rfl rfl rfl ?_
      have c := h.core
      have q := h.cnt
      generalize tot s.th = k at *
      generalize cur s = d at *
      cases c; cases q
      leaf
  · rw [if_neg e]
    exact runD_ok h h1 (by simpa using e)

theorem runB_ok {o : Nat} {c : Cfg} {a : Arg} {s : St} (h : Inv (xR o) s) (h1 : s.dOpen = false) : Ok (runB c s a) := by
  have := h.core.dEx
  simpa [runB, this] using runC_ok h h1

theorem lock_ok {x : X} {s : St} (h : Inv x s) (r : 0 < s.ref) : lock s = some s := by
  have := h.core.dead
  have e : s.dead = false := by rw [this]; simp; omega
  simp [lock, e]

theorem run0_ok {c : Cfg} {a : Arg} {s : St} {hd : Option Nat} (h : Inv (xOf ⟨.run0, hd⟩) s) (hn : hd = none) : Ok (run0 c s a) := by
  subst hn
  have dp : s.defPend = true := by
    have := h.core.run
    cases e : s.defPend with
    | true => rfl
    | false => simp [X.add, xOf, e, Pc.run] at this
  have r : 0 < s.ref := by have := h.core.refc; simp only [dp, b2n_true] at this; omega
  unfold run0
  rw [lock_ok h r]
  simp only [Option.bind_eq_bind, Option.bind_some]
  by_cases e : s.dOpen = true
  · rw [if_pos e]
    have op : opening s.ev = true := by rw [h.core.op]; simp [opn, e]
    have hm := (h.hist.num op).1
    have er := h.core.oerr (Or.inl e)
    simp only [finishOpen, hm, ne_eq, er, not_false_eq_true, if_true]
    refine ⟨_, rfl, h.pushF (pc := .opCb s.openErr .runB) (hd := none) rfl rfl rfl rfl ?_ (Or.inr rfl) (Or.inl rfl) ?_⟩
    · exact { h.hist.openDone op hm s.openErr (fun x => absurd x er) with }
    · have c := h.core
      have q := h.cnt
      have e1 : opening (Ev.openDone (s.nOpen - 1) s.openErr :: s.ev) = false := rfl
      have e2 : closing (Ev.openDone (s.nOpen - 1) s.openErr :: s.ev) = closing s.ev := rfl
      generalize tot s.th = k at *
      generalize cur s = d at *
      simp only [St.push, St.log] at *
      cases c; cases q
      leaf
  · rw [if_neg e]
    have k : Inv (xR 0) s := h
    exact runB_ok k (by simpa using e)

end Gensio.LlFd
