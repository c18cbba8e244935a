import Verif.Model.SelFd

/-!
# Lemmas about the handlers of a file descriptor
-/

namespace Gensio.SelFd

def Pc.isA (i : Nat) : Pc → Bool
  | .setA o => o = i
  | _ => false

def Pc.isB (i : Nat) : Pc → Bool
  | .setB o => o = i
  | _ => false

def Pc.isH (i : Nat) : Pc → Bool
  | .inH o _ _ _ => o = i
  | _ => false

def Pc.isD (i : Nat) : Pc → Bool
  | .inDone o _ _ => o = i
  | _ => false

/-- The thread is in a handler. -/
def Pc.hand : Pc → Bool
  | .inH .. => true
  | _ => false

/-- The thread works on an event of the descriptor. -/
def Pc.busy : Pc → Bool
  | .got .. | .inH .. | .inDone .. => true
  | _ => false

/-- Number of threads. -/
def cn (f : Nat → Pc → Bool) (i : Nat) (l : List Pc) : Nat := l.countP (f i)

def b (p : Bool) : Nat := if p then 1 else 0

@[simp] theorem b_true : b true = 1 := rfl
@[simp] theorem b_false : b false = 0 := rfl

theorem perm_erase : ∀ {l : List Pc} {i : Nat} {p : Pc}, l[i]? = some p → (p :: l.eraseIdx i).Perm l
  | a :: l, 0, p, h => by simp at h; subst h; exact List.Perm.refl _
  | a :: l, i + 1, p, h => by
    simp at h
    simp only [List.eraseIdx_cons_succ]
    exact (List.Perm.swap a p _).trans ((perm_erase h).cons a)
  | [], i, p, h => by simp at h

/-- History of registration `i`. -/
def isStart (i : Nat) : TEv → Bool
  | .start j => j = i
  | _ => false

def isRet (i : Nat) : TEv → Bool
  | .ret j => j = i
  | _ => false

def isDone (i : Nat) : TEv → Bool
  | .done j _ => j = i
  | _ => false

def isGone (i : Nat) : TEv → Bool
  | .gone j _ => j = i
  | _ => false

def isSet (i : Nat) : TEv → Bool
  | .set j _ => j = i
  | _ => false

/-- The order of what happens. -/
def TrOk : List TEv → Prop
  | [] => True
  | .set i _ :: t => TrOk t ∧ t.countP (isSet i) = 0 ∧ t.countP (isGone i) = 0
  | .gone i _ :: t => TrOk t ∧ t.countP (isGone i) = 0 ∧ t.countP (isSet i) = 1
  | .start i :: t => TrOk t ∧ t.countP (isGone i) = 0 ∧ t.countP (isSet i) = 1
  | .ret i :: t => TrOk t ∧ t.countP (isRet i) < t.countP (isStart i)
  | .done i d :: t => TrOk t ∧ d = some i ∧ t.countP (isDone i) = 0 ∧ .gone i true ∈ t ∧ .set i true ∈ t ∧
      t.countP (isStart i) = t.countP (isRet i)

/-- Numbers of threads and of entries of the history for one registration. -/
structure Sm where
  A : Nat
  B : Nat
  H : Nat
  D : Nat
  st : Nat
  rt : Nat
  dn : Nat
  se : Nat
  gn : Nat
  setT : Bool
  goneF : Bool

def sm (i : Nat) (th : List Pc) (tr : List TEv) : Sm :=
  { A := cn Pc.isA i th, B := cn Pc.isB i th, H := cn Pc.isH i th, D := cn Pc.isD i th,
    st := tr.countP (isStart i), rt := tr.countP (isRet i), dn := tr.countP (isDone i), se := tr.countP (isSet i),
    gn := tr.countP (isGone i), setT := decide (TEv.set i true ∈ tr), goneF := decide (TEv.gone i false ∈ tr) }

/-- What holds for registration `i`, made if `inn`. -/
structure RI (i : Nat) (inn : Bool) (r : Reg) (cur : Bool) (m : Sm) : Prop where
  use : r.use = m.H
  tok : b cur + m.A + m.B + b r.queued + m.D + b (r.deleted && r.use != 0) + b r.freed = b inn
  curD : cur = true → r.deleted = false
  aD : 0 < m.A → r.deleted = false ∧ r.use = 0 ∧ r.data = some i
  bD : 0 < m.B → r.deleted = true ∧ r.use = 0 ∧ r.data = some i
  qD : r.queued = true → r.deleted = true ∧ r.use = 0 ∧ r.data = some i
  dD : 0 < m.D → r.deleted = true ∧ r.use = 0 ∧ r.done = true
  fD : r.freed = true → r.deleted = true ∧ r.use = 0
  useN : inn = false → r = {}
  starts : m.st = m.rt + r.use
  dones : m.dn = b (r.done && (r.freed || m.D != 0))
  sets : m.se = b inn
  gones : m.gn = b (inn && !cur)
  setT : m.setT = true → inn = true
  rpt : inn = true → r.done = (m.setT && !m.goneF)

/-- All registrations. -/
structure R (s : St) : Prop where
  ri : ∀ i, RI i (i < s.n) (s.regs i) (s.cur = some i) (sm i s.th s.tr)
  data : ∀ i, s.cur = some i → s.data = some i
  inH : ∀ i d e k, .inH i d e k ∈ s.th → d = some i ∧ (s.cur = none ∨ s.cur = some i)
  tr : TrOk s.tr

theorem sm_perm {i th th' tr} (e : th.Perm th') : sm i th' tr = sm i th tr := by
  have q (f) : cn f i th' = cn f i th := (e.countP_eq _).symm
  simp [sm, q]

theorem R.perm {s : St} {th : List Pc} (h : R s) (e : s.th.Perm th) : R { s with th := th } where
  ri := fun i => by have := h.ri i; rw [← sm_perm e] at this; exact this
  data := h.data
  inH := fun i d ev k hm => h.inH i d ev k (e.symm.subset hm)
  tr := h.tr

/-- What the epoll functions do not change. -/
structure Same (s s' : St) : Prop where
  regs : s'.regs = s.regs
  cur : s'.cur = s.cur
  data : s'.data = s.data
  n : s'.n = s.n
  th : s'.th = s.th
  tr : s'.tr = s.tr

theorem R.same {s s' : St} (h : R s) (e : Same s s') : R s' := by
  obtain ⟨e1, e2, e3, e4, e5, e6⟩ := e
  constructor
  · rw [e1, e2, e4, e5, e6]; exact h.ri
  · rw [e2, e3]; exact h.data
  · rw [e2, e5]; exact h.inH
  · rw [e6]; exact h.tr

theorem ctl_same {op r w e} {s s' : St} (h : ctl op r w e s = some s') : Same s s' := by
  unfold ctl at h
  split at h <;> split at h <;> simp_all <;> subst h <;> exact ⟨rfl, rfl, rfl, rfl, rfl, rfl⟩

theorem updateFd_same {op} {s s' : St} (h : updateFd op s = some s') : Same s s' := by
  unfold updateFd at h
  split at h
  · split at h
    · cases h; exact ⟨rfl, rfl, rfl, rfl, rfl, rfl⟩
    · split at h
      · cases h; exact ⟨rfl, rfl, rfl, rfl, rfl, rfl⟩
      · exact ⟨(ctl_same h).1, (ctl_same h).2, (ctl_same h).3, (ctl_same h).4, (ctl_same h).5, (ctl_same h).6⟩
  · exact ctl_same h

/-- The other registrations. -/
theorem sm_th {i p th tr} (hA : p.isA i = false) (hB : p.isB i = false) (hH : p.isH i = false) (hD : p.isD i = false) :
    sm i (p :: th) tr = sm i th tr := by
  simp [sm, cn, hA, hB, hH, hD]

/-- The registration a thread works on. -/
def Pc.on : Pc → Option Nat
  | .setA i | .setB i | .inH i _ _ _ | .inDone i _ _ => some i
  | _ => none

/-- The registration an entry of the history is about. -/
def TEv.on : TEv → Nat
  | .set i _ | .gone i _ | .start i | .ret i | .done i _ => i

theorem sm_pc {i p th tr} (h : p.on ≠ some i) : sm i (p :: th) tr = sm i th tr := by
  apply sm_th <;> cases p <;> simp_all [Pc.on, Pc.isA, Pc.isB, Pc.isH, Pc.isD]

theorem sm_ev {i e th tr} (h : e.on ≠ i) : sm i th (e :: tr) = sm i th tr := by
  cases e <;> simp only [TEv.on, ne_eq] at h <;>
    simp [sm, isStart, isRet, isDone, isSet, isGone, h, Ne.symm h]

/-- Take the thread that goes on from the list. -/
theorem R.pick {s : St} {i : Nat} {p : Pc} (h : R s) (e : s.th[i]? = some p) : R { s with th := p :: s.th.eraseIdx i } :=
  h.perm (perm_erase e).symm

/-- Only registration `o` changed. -/
theorem R.one {s s' : St} (o : Nat) (h : R s) (hn : s'.n = s.n) (hr : ∀ i, i ≠ o → s'.regs i = s.regs i)
    (hc : ∀ i, i ≠ o → (s'.cur = some i ↔ s.cur = some i)) (hm : ∀ i, i ≠ o → sm i s'.th s'.tr = sm i s.th s.tr)
    (ho : RI o (o < s.n) (s'.regs o) (s'.cur = some o) (sm o s'.th s'.tr)) :
    ∀ i, RI i (i < s'.n) (s'.regs i) (s'.cur = some i) (sm i s'.th s'.tr) := by
  intro i
  by_cases c : i = o
  · subst c; rw [hn]; exact ho
  · have q := h.ri i
    have w : decide (s'.cur = some i) = decide (s.cur = some i) := by simp [hc i c]
    rw [hn, hr i c, w, hm i c]
    exact q

theorem R.setA {s s' : St} {o : Nat} (h : R { s with th := .setA o :: s.th }) (e : setA o s = some s') : R s' := by
  unfold SelFd.setA at e
  split at e
  · cases e
  cases e
  constructor
  · refine R.one o h rfl (fun i c => by simp [park, St.upd, c]) (fun i c => by simp [park, St.upd]) (fun i c => ?_) ?_
    · simp only [park, St.upd]
      rw [sm_pc (by simp [Pc.on, Ne.symm c]), sm_pc (by simp [Pc.on, Ne.symm c])]
    · have q := h.ri o
      dsimp only at q
      have q2 := q.aD (by simp [sm, cn, Pc.isA])
      obtain ⟨a1, a2, a3, a4, a5, a6, a7, a8, a9, a10, a11, a12, a13, a14, a15⟩ := q
      constructor <;> simp_all [park, St.upd, sm, cn, Pc.isA, Pc.isB, Pc.isH, Pc.isD] <;> grind [b]
  · exact h.data
  · intro i d ev k hm
    simp only [park, List.mem_cons, reduceCtorEq, false_or] at hm
    exact h.inH i d ev k (by simp; exact hm)
  · exact h.tr

theorem R.setB {s s' : St} {o : Nat} (h : R { s with th := .setB o :: s.th }) (e : setB o s = some s') : R s' := by
  unfold SelFd.setB at e
  split at e
  · cases e
  rename_i nf
  have q := h.ri o
  dsimp only at q
  have q2 := q.bD (by simp [sm, cn, Pc.isB])
  rw [if_pos q2.2.1] at e
  cases e
  constructor
  · refine R.one o h rfl (fun i c => by simp [St.upd, c]) (fun i c => by simp [St.upd]) (fun i c => ?_) ?_
    · simp only [St.upd]
      rw [sm_pc (by simp [Pc.on, Ne.symm c])]
    · obtain ⟨a1, a2, a3, a4, a5, a6, a7, a8, a9, a10, a11, a12, a13, a14, a15⟩ := q
      constructor <;> simp_all [St.upd, sm, cn, Pc.isA, Pc.isB, Pc.isH, Pc.isD] <;> grind [b]
  · exact h.data
  · intro i d ev k hm
    exact h.inH i d ev k (by simp; exact hm)
  · exact h.tr

theorem trok_done {o : Nat} {r : Reg} {c : Bool} {n : Nat} {th : List Pc} {tr : List TEv} (ht : TrOk tr)
    (h : RI o (o < n) r c (sm o th tr)) (hn : o < n) (hd : r.done = true) (hc : c = false) (hf : r.freed = false)
    (hD : (sm o th tr).D = 0) (hu : r.use = 0) : TrOk (.done o (some o) :: tr) := by
  have w := h.rpt (by simpa using hn)
  have w2 := h.gones
  have w3 := h.dones
  have w4 := h.starts
  simp only [hd, hn, hc, decide_true, Bool.not_false, Bool.and_true, b_true, hf, hD, hu] at w w2 w3 w4
  simp [sm] at w w2 w3 w4
  refine ⟨ht, rfl, by simpa using w3, ?_, w.1, w4⟩
  have : 0 < tr.countP (isGone o) := by omega
  rw [List.countP_pos_iff] at this
  obtain ⟨x, hx, hx2⟩ := this
  cases x <;> simp [isGone] at hx2
  rename_i j rp
  subst hx2
  cases rp
  · exact absurd hx w.2
  · exact hx

theorem R.runner {s s' : St} {o : Nat} (h : R s) (hq : (s.regs o).queued = true) (e : runner o s = some s') : R s' := by
  unfold SelFd.runner at e
  split at e
  · cases e
  rename_i nf
  have q := h.ri o
  have q2 := q.qD hq
  have q4 : o < s.n := by grind [b, q.tok]
  have q5 : (s.regs o).done = true → TrOk (.done o (some o) :: s.tr) := fun hd =>
    trok_done h.tr q q4 hd (by have := q.tok; grind [b]) (by simpa using nf) (by have := q.tok; grind [b]) q2.2.1
  obtain ⟨a1, a2, a3, a4, a5, a6, a7, a8, a9, a10, a11, a12, a13, a14, a15⟩ := q
  dsimp only at e
  split at e
  · rename_i hd
    simp only [St.upd, if_pos] at hd
    cases e
    constructor
    · refine R.one o h rfl (fun i c => by simp [St.upd, c]) (fun i c => by simp [St.upd]) (fun i c => ?_) ?_
      · simp only [St.upd]
        rw [sm_ev (by simp [TEv.on, Ne.symm c])]
      · constructor <;> simp_all [St.upd, sm, isStart, isRet, isDone, isSet, isGone] <;> grind [b]
    · exact h.data
    · exact h.inH
    · simp only [St.upd, if_pos, q2.2.2]
      exact q5 hd
  · rename_i hd
    simp only [St.upd, if_pos] at hd
    cases e
    constructor
    · refine R.one o h rfl (fun i c => by simp [St.upd, c]) (fun i c => by simp [St.upd]) (fun i c => ?_) ?_
      · simp only [St.upd]
      · constructor <;> simp_all [St.upd, sm] <;> grind [b]
    · exact h.data
    · exact h.inH
    · exact h.tr

/-- `clearReg` after the descriptor has been taken out. -/
theorem R.clear {s s' s1 s2 : St} {o : Nat} {rpt : Bool} (h : R s) (hc : s.cur = some o) (e1 : Same { s with cur := none } s1)
    (e2 : clearReg rpt o s1 = some s2)
    (e : s' = initFd { s2 with saved := false, del := s2.del + 1, tr := .gone o rpt :: s2.tr }) : R s' := by
  have q := h.ri o
  have hd := h.data o hc
  obtain ⟨b1, b2, b3, b4, b5, b6⟩ := e1
  unfold clearReg at e2
  split at e2
  · cases e2
  rename_i nf
  cases e2
  subst e
  obtain ⟨a1, a2, a3, a4, a5, a6, a7, a8, a9, a10, a11, a12, a13, a14, a15⟩ := q
  have q4 : o < s.n := by grind [b]
  constructor
  · refine R.one o h b4 (fun i c => by simp [St.upd, initFd, c, b1]) (fun i c => by simp [St.upd, initFd, hc, Ne.symm c]) (fun i c => ?_) ?_
    · simp only [St.upd, initFd, b5, b6]
      rw [sm_ev (by simp [TEv.on, Ne.symm c])]
    · constructor <;> simp_all [St.upd, initFd, sm, isStart, isRet, isDone, isSet, isGone] <;> grind [b]
  · intro i hi; simp [initFd] at hi
  · intro i d ev k hm
    have := h.inH i d ev k (by simpa [initFd, St.upd, b5] using hm)
    exact ⟨this.1, .inl rfl⟩
  · simp only [initFd, St.upd, b6]
    simp only [hc, sm, decide_true, q4, Bool.not_true, Bool.and_false, b_false, b_true] at a13 a12
    exact ⟨h.tr, a13, a12⟩

/-- No thread is in a handler. -/
def NoH (s : St) : Prop := ∀ p ∈ s.th, p.hand = false

theorem NoH.cn {s : St} (h : NoH s) (i : Nat) : (sm i s.th s.tr).H = 0 := by
  simp only [sm, SelFd.cn, List.countP_eq_zero]
  intro p hp
  have := h p hp
  cases p <;> simp_all [Pc.hand, Pc.isH]

/-- The new registration. -/
theorem RI.fresh {n : Nat} {r : Reg} {th tr} {d : Bool} (h : RI n false r false (sm n th tr)) (p : Pc) (hp : p.on ≠ some n) :
    RI n true { done := d } true (sm n th (.set n d :: tr)) := by
  obtain ⟨a1, a2, a3, a4, a5, a6, a7, a8, a9, a10, a11, a12, a13, a14, a15⟩ := h
  have a9 := a9 rfl
  have g : .gone n false ∉ tr := by
    intro hg
    have : 0 < tr.countP (isGone n) := by rw [List.countP_pos_iff]; exact ⟨_, hg, by simp [isGone]⟩
    simp only [sm, Bool.not_false, Bool.and_true, b_false] at a13
    omega
  constructor <;> simp_all [sm, isStart, isRet, isDone, isSet, isGone] <;> grind [b]

/-- The registration that is replaced. -/
theorem RI.replace {i m : Nat} {r : Reg} {th tr} {d : Bool} (h : RI i true r true (sm i th tr)) (hH : (sm i th tr).H = 0)
    (hm : m ≠ i) : RI i true { r with data := some i } false (sm i (.setA i :: th) (.set m d :: .gone i true :: tr)) := by
  rw [sm_ev (by simp [TEv.on, hm])]
  obtain ⟨a1, a2, a3, a4, a5, a6, a7, a8, a9, a10, a11, a12, a13, a14, a15⟩ := h
  constructor <;> simp_all [sm, cn, Pc.isA, Pc.isB, Pc.isH, Pc.isD, isStart, isRet, isDone, isSet, isGone] <;> grind [b]

theorem R.set {s s' : St} {d : Bool} (h : R s) (hh : NoH s) (e : SelFd.set d s = some s') : R s' := by
  unfold SelFd.set at e
  dsimp only at e
  have qn := h.ri s.n
  have hnc : s.cur ≠ some s.n := by
    intro x
    have := qn.tok
    simp [x] at this
  simp only [Nat.lt_irrefl, decide_false, hnc] at qn
  split at e
  · rename_i hc
    refine R.same (s := _) ?_ (updateFd_same e)
    constructor
    · intro i
      dsimp only
      by_cases c : i = s.n
      · subst c
        simp only [St.upd, if_pos, Nat.lt_succ_self, decide_true]
        exact qn.fresh (.wait 0) (by simp [Pc.on])
      · have w : decide (i < s.n + 1) = decide (i < s.n) := by simp; omega
        have q := h.ri i
        rw [w, sm_ev (by simp [TEv.on, Ne.symm c])]
        simp only [St.upd, if_neg c, hc] at q ⊢
        simpa [Ne.symm c] using q
    · intro i hi; exact hi
    · intro i d ev k hm
      have := hh _ hm
      simp [Pc.hand] at this
    · refine ⟨h.tr, ?_, ?_⟩
      · have := qn.sets; simpa [sm] using this
      · have := qn.gones; simpa [sm] using this
  · rename_i o hc
    generalize hu : updateFd _ _ = u at e
    cases u with
    | none => cases e
    | some s1 =>
    cases e
    have hs := updateFd_same hu
    have qo := h.ri o
    have hon : o < s.n := by
      have := qo.tok
      simp [hc] at this
      grind [b]
    have hno : o ≠ s.n := by omega
    have key : R (park (.setA o) { { s.upd s.n (fun _ => { done := d }) with n := s.n + 1, cur := some s.n, data := some s.n } with saved := false, del := s.del + 1, tr := .set s.n d :: .gone o true :: s.tr, regs := fun j => if j = o then { (s.upd s.n (fun _ => { done := d })).regs o with data := s.data } else (s.upd s.n (fun _ => { done := d })).regs j }) := by
      constructor
      · intro i
        by_cases c : i = s.n
        · subst c
          simp only [park, St.upd, if_pos, Nat.lt_succ_self, decide_true, if_neg (Ne.symm hno)]
          rw [sm_pc (by simp [Pc.on, hno])]
          refine RI.fresh (r := s.regs s.n) ?_ (.wait 0) (by simp [Pc.on])
          rw [sm_ev (by simp [TEv.on, hno])]
          exact qn
        · have w : decide (i < s.n + 1) = decide (i < s.n) := by simp; omega
          by_cases c2 : i = o
          · subst c2
            have hd := h.data i hc
            have hz := hh.cn i
            simp only [hon, hc, decide_true] at qo
            have := qo.replace (d := d) hz (Ne.symm c)
            simp only [park, St.upd, if_neg c, if_pos, w, hon, decide_true, hd]
            simpa [Ne.symm c] using this
          · have q := h.ri i
            simp only [park, St.upd, if_neg c, if_neg c2, w]
            rw [sm_pc (by simp [Pc.on, Ne.symm c2]), sm_ev (by simp [TEv.on, Ne.symm c]), sm_ev (by simp [TEv.on, Ne.symm c2])]
            simp only [hc] at q
            simpa [Ne.symm c, Ne.symm c2] using q
      · intro i hi; exact hi
      · intro i d ev k hm
        simp only [park, List.mem_cons, reduceCtorEq, false_or] at hm
        have := hh _ hm
        simp [Pc.hand] at this
      · have q2 := qo.sets
        have q3 := qo.gones
        have q4 := qn.sets
        have q5 := qn.gones
        simp only [sm, hc, hon, decide_true, Bool.not_true, Bool.and_false, Bool.false_and, b_false, b_true] at q2 q3 q4 q5
        refine ⟨⟨h.tr, q3, q2⟩, ?_, ?_⟩
        · rw [List.countP_cons, q4, if_neg (by simp [isSet])]
        · rw [List.countP_cons, q5, if_neg (by simp [isGone, hno])]
    refine R.same key ⟨?_, ?_, ?_, ?_, ?_, ?_⟩
    · exact hs.regs
    · exact hs.cur
    · exact hs.data
    · exact hs.n
    · simp [park, hs.th]
    · exact hs.tr

theorem sm_inH {i d e k th tr} : sm i (.inH i d e k :: th) tr = { sm i th tr with H := (sm i th tr).H + 1 } := by
  simp [sm, cn, Pc.isA, Pc.isB, Pc.isH, Pc.isD]

theorem sm_inDone {i e k th tr} : sm i (.inDone i e k :: th) tr = { sm i th tr with D := (sm i th tr).D + 1 } := by
  simp [sm, cn, Pc.isA, Pc.isB, Pc.isH, Pc.isD]

theorem sm_start {i th tr} : sm i th (.start i :: tr) = { sm i th tr with st := (sm i th tr).st + 1 } := by
  simp [sm, isStart, isRet, isDone, isSet, isGone]

theorem sm_ret {i th tr} : sm i th (.ret i :: tr) = { sm i th tr with rt := (sm i th tr).rt + 1 } := by
  simp [sm, isStart, isRet, isDone, isSet, isGone]

theorem sm_done {i d th tr} : sm i th (.done i d :: tr) = { sm i th tr with dn := (sm i th tr).dn + 1 } := by
  simp [sm, isStart, isRet, isDone, isSet, isGone]

/-- A handler of the registration is called. -/
theorem RI.start {i : Nat} {r : Reg} {m : Sm} (h : RI i true r true m) :
    RI i true { r with use := r.use + 1 } true { m with H := m.H + 1, st := m.st + 1 } := by
  obtain ⟨a1, a2, a3, a4, a5, a6, a7, a8, a9, a10, a11, a12, a13, a14, a15⟩ := h
  have d := a3 rfl
  simp only [d, b_true] at a2
  constructor <;> simp only [d, b_true] <;> first | assumption | grind [b]

/-- A handler of the registration returns. -/
theorem RI.ret {i : Nat} {inn c : Bool} {r : Reg} {m : Sm} (h : RI i inn r c { m with H := m.H + 1 })
    (hx : r.deleted = false ∨ r.use ≠ 1) : RI i inn { r with use := r.use - 1 } c { m with rt := m.rt + 1 } := by
  obtain ⟨a1, a2, a3, a4, a5, a6, a7, a8, a9, a10, a11, a12, a13, a14, a15⟩ := h
  dsimp only at *
  have tk : (r.deleted && r.use - 1 != 0) = (r.deleted && r.use != 0) := by
    rcases hx with x | x
    · simp [x]
    · have y : r.use - 1 ≠ 0 := by omega
      have z : r.use ≠ 0 := by omega
      rw [bne_iff_ne.mpr y, bne_iff_ne.mpr z]
  rw [← tk] at a2
  constructor <;> (try dsimp only) <;> first | assumption | grind [b]

/-- The last handler of a deleted registration returns and the cleared callback is called. -/
theorem RI.retD {i : Nat} {inn c : Bool} {r : Reg} {m : Sm} (h : RI i inn r c { m with H := m.H + 1 })
    (hd : r.deleted = true) (hu : r.use = 1) (hdn : r.done = true) :
    RI i inn { r with use := r.use - 1 } c { m with rt := m.rt + 1, dn := m.dn + 1, D := m.D + 1 } := by
  obtain ⟨a1, a2, a3, a4, a5, a6, a7, a8, a9, a10, a11, a12, a13, a14, a15⟩ := h
  dsimp only at *
  constructor <;> (try dsimp only) <;> first | assumption | grind [b]

/-- The same without a cleared callback. -/
theorem RI.retF {i : Nat} {inn c : Bool} {r : Reg} {m : Sm} (h : RI i inn r c { m with H := m.H + 1 })
    (hd : r.deleted = true) (hu : r.use = 1) (hdn : r.done = false) :
    RI i inn { { r with use := r.use - 1 } with freed := true } c { m with rt := m.rt + 1 } := by
  obtain ⟨a1, a2, a3, a4, a5, a6, a7, a8, a9, a10, a11, a12, a13, a14, a15⟩ := h
  dsimp only at *
  constructor <;> (try dsimp only) <;> first | assumption | grind [b]

/-- A handler is called. -/
theorem R.start {s s1 : St} {en : Bool} {i k : Nat} {e : Evs} (h : R s) (hs : startCall en s = some (s1, some i)) :
    R (park (.inH i s1.data e k) s1) ∧ s.cur = some i ∧ s1.cur = some i := by
  unfold startCall at hs
  split at hs
  · split at hs
    · simp at hs
    · rename_i o hc
      split at hs
      · cases hs
      rename_i nf
      simp only [Option.some.injEq, Prod.mk.injEq] at hs
      obtain ⟨rfl, rfl⟩ := hs
      have q := h.ri o
      refine ⟨?_, hc, hc⟩
      have hd := h.data o hc
      constructor
      · refine R.one o h rfl (fun i c => by simp [park, St.upd, c]) (fun i c => by simp [park, St.upd]) (fun i c => ?_) ?_
        · simp only [park, St.upd]
          rw [sm_pc (by simp [Pc.on, Ne.symm c]), sm_ev (by simp [TEv.on, Ne.symm c])]
        · have hon : o < s.n := by
            have := q.tok
            simp [hc] at this
            grind [b]
          simp only [hc, hon, decide_true] at q
          simp only [park, St.upd, if_pos, hon, hc, decide_true, sm_inH, sm_start]
          exact q.start
      · exact h.data
      · intro j d ev k hm
        simp only [park, St.upd, List.mem_cons] at hm
        rcases hm with hm | hm
        · cases hm; exact ⟨hd, .inr hc⟩
        · exact h.inH j d ev k hm
      · have q2 := q.sets
        have q3 := q.gones
        have hon : o < s.n := by
          have := q.tok
          simp [hc] at this
          grind [b]
        simp only [sm, hc, hon, decide_true, Bool.not_true, Bool.and_false, b_false, b_true] at q2 q3
        exact ⟨h.tr, q3, q2⟩
  · simp at hs

theorem startCall_none {s s1 : St} {en : Bool} (hs : startCall en s = some (s1, none)) : s1 = s := by
  unfold startCall at hs
  split at hs
  · split at hs
    · simp at hs; exact hs.symm
    · split at hs <;> simp at hs
  · simp at hs; exact hs.symm

theorem rearm_same {s s' : St} (e : rearm s = some s') : Same s s' := by
  unfold rearm at e
  split at e
  · cases e; exact ⟨rfl, rfl, rfl, rfl, rfl, rfl⟩
  · exact updateFd_same e

theorem R.run2 {s s' : St} {e : Evs} (h : R s) (hs : SelFd.run2 e s = some s') : R s' := by
  unfold SelFd.run2 at hs
  split at hs
  · cases hs
  · rename_i g; cases hs; exact (h.start g).1
  · rename_i g; rw [startCall_none g] at hs; exact h.same (rearm_same hs)

theorem R.run1 {s s' : St} {e : Evs} (h : R s) (hs : SelFd.run1 e s = some s') : R s' := by
  unfold SelFd.run1 at hs
  split at hs
  · cases hs
  · rename_i g; cases hs; exact (h.start g).1
  · rename_i g; rw [startCall_none g] at hs; exact h.run2 hs

theorem R.run0 {s s' : St} {e : Evs} (h : R s) (hs : SelFd.run0 e s = some s') : R s' := by
  unfold SelFd.run0 at hs
  split at hs
  · cases hs
  · rename_i g; cases hs; exact (h.start g).1
  · rename_i g; rw [startCall_none g] at hs; exact h.run1 hs

theorem R.runFrom {s s' : St} {e : Evs} {k : Nat} (h : R s) (hs : SelFd.runFrom e k s = some s') : R s' := by
  unfold SelFd.runFrom at hs
  split at hs
  · exact h.run0 hs
  · exact h.run1 hs
  · exact h.run2 hs
  · exact h.same (rearm_same hs)

theorem R.noPc {s : St} {p : Pc} (h : R { s with th := p :: s.th }) (hp : p.on = none) : R s where
  ri := fun i => by have := h.ri i; dsimp only at this; rw [sm_pc (by simp [hp])] at this; exact this
  data := h.data
  inH := fun i d e k hm => h.inH i d e k (by simp [hm])
  tr := h.tr

theorem R.got {s s' : St} {c : Nat} {e : Evs} (h : R { s with th := .got c e :: s.th }) (hs : SelFd.got c e s = some s') :
    R s' := by
  have h := h.noPc rfl
  unfold SelFd.got at hs
  split at hs
  · exact h.same (rearm_same hs)
  · split at hs
    · generalize hu : updateFd _ _ = u at hs
      cases u with
      | none => cases hs
      | some s1 =>
        have q := h.same (updateFd_same hu)
        refine R.run0 (s := { s1 with saved := true }) ⟨q.ri, q.data, q.inH, q.tr⟩ hs
    · exact h.run0 hs

/-- After a handler or the cleared callback the registration may be released. -/
theorem R.retDone {s s' : St} {i k : Nat} {e : Evs} (h : R { s with th := .inDone i e k :: s.th })
    (hs : SelFd.retDone i e k s = some s') : R s' := by
  unfold SelFd.retDone at hs
  split at hs
  · cases hs
  rename_i nf
  refine R.runFrom ?_ hs
  have q := h.ri i
  dsimp only at q
  have q2 := q.dD (by simp [sm, cn, Pc.isD])
  constructor
  · refine R.one i h rfl (fun j c => by simp [St.upd, c]) (fun j c => by simp [St.upd]) (fun j c => ?_) ?_
    · simp only [St.upd]
      rw [sm_pc (by simp [Pc.on, Ne.symm c])]
    · obtain ⟨a1, a2, a3, a4, a5, a6, a7, a8, a9, a10, a11, a12, a13, a14, a15⟩ := q
      constructor <;> simp_all [St.upd, sm, cn, Pc.isA, Pc.isB, Pc.isH, Pc.isD] <;> grind [b]
  · exact h.data
  · intro j d ev k hm
    exact h.inH j d ev k (by simp; exact hm)
  · exact h.tr

/-- A handler returns. -/
theorem R.retH {s s' : St} {i k : Nat} {d : Option Nat} {e : Evs} (h : R { s with th := .inH i d e k :: s.th })
    (hs : SelFd.retH i d e k s = some s') : R s' := by
  have hm := h.inH i d e k (by simp)
  obtain ⟨rfl, hcur⟩ := hm
  have q := h.ri i
  dsimp only at q hcur
  rw [sm_inH] at q
  unfold SelFd.retH at hs
  split at hs
  · cases hs
  rename_i nf
  simp only [Bool.or_eq_true, decide_eq_true_eq, not_or, Bool.not_eq_true] at nf
  have h0 := q.use
  have tret : TrOk (.ret i :: s.tr) := by
    refine ⟨h.tr, ?_⟩
    have := q.starts
    simp only [sm] at this
    have := nf.2
    omega
  have frame : ∀ {s1 : St} (p : List Pc) (t : List TEv), (∀ x ∈ p, x.on ≠ none → x.on = some i) → (∀ x ∈ t, x.on = i) → s1.th = p ++ s.th → s1.tr = t ++ .ret i :: s.tr →
      ∀ j, j ≠ i → sm j s1.th s1.tr = sm j (.inH i (some i) e k :: s.th) s.tr := by
    intro s1 p t hp ht e1 e2 j c
    rw [sm_pc (by simp [Pc.on, Ne.symm c]), e1, e2]
    have : sm j (p ++ s.th) (t ++ .ret i :: s.tr) = sm j s.th (t ++ .ret i :: s.tr) := by
      clear e1
      induction p with
      | nil => rfl
      | cons x p ih =>
        rw [List.cons_append, sm_pc, ih (fun y hy => hp y (by simp [hy]))]
        have := hp x (by simp)
        intro hx
        rw [hx] at this
        simp at this
        exact c this
    rw [this]
    have : sm j s.th (t ++ .ret i :: s.tr) = sm j s.th (.ret i :: s.tr) := by
      clear e2 this
      induction t with
      | nil => rfl
      | cons x t ih =>
        rw [List.cons_append, sm_ev, ih (fun y hy => ht y (by simp [hy]))]
        rw [ht x (by simp)]
        exact Ne.symm c
    rw [this, sm_ev (by simp [TEv.on, Ne.symm c])]
  dsimp only at hs
  split at hs
  · rename_i hdel
    simp only [St.upd, if_pos, Bool.and_eq_true, decide_eq_true_eq] at hdel
    have hu : (s.regs i).use = 1 := by have := nf.2; omega
    have hcn : s.cur = none := by
      rcases hcur with x | x
      · exact x
      · have := q.curD (by simp [x]); simp [this] at hdel
    split at hs
    · rename_i hdn
      simp only [St.upd, if_pos] at hdn
      cases hs
      have hri : RI i (i < s.n) { s.regs i with use := (s.regs i).use - 1 } (s.cur = some i) (sm i (.inDone i e k :: s.th) (.done i (some i) :: .ret i :: s.tr)) := by
        rw [sm_inDone, sm_done, sm_ret]
        exact q.retD hdel.1 hu hdn
      constructor
      · refine R.one i h rfl (fun j c => by simp [park, St.upd, c]) (fun j c => by simp [park, St.upd, hcn])
          (frame [.inDone i e k] [.done i (some i)] (by simp [Pc.on]) (by simp [TEv.on]) rfl rfl) ?_
        · simp only [park, St.upd, if_pos]
          rw [hcn] at hri
          exact hri
      · intro j hj; simp [park] at hj
      · intro j d' ev k' hmm
        simp only [park, St.upd, List.mem_cons, reduceCtorEq, false_or] at hmm
        exact ⟨(h.inH j d' ev k' (by simp [hmm])).1, .inl rfl⟩
      · refine ⟨tret, rfl, ?_, ?_, ?_, ?_⟩
        · have := hri.dones
          simp [sm, List.countP_cons, isDone, isRet] at this
          have b1 : b ((s.regs i).done && ((s.regs i).freed || cn Pc.isD i (.inDone i e k :: s.th) != 0)) ≤ 1 := by grind [b]
          have g := q.dones
          have g2 := q.tok
          simp only [sm, nf.1, Bool.false_or] at g
          simp [hdel.1, nf.2, sm] at g2
          have g3 : cn Pc.isD i s.th = 0 := by grind [b]
          simp only [g3] at g
          simpa [List.countP_cons, isDone] using g
        · have in0 : i < s.n := by have := q.tok; grind [b]
          have := q.gones
          simp [hcn, in0, sm] at this
          have t0 : 0 < s.tr.countP (isGone i) := by omega
          rw [List.countP_pos_iff] at t0
          obtain ⟨x, hx, hx2⟩ := t0
          cases x <;> simp [isGone] at hx2
          rename_i j rp
          subst hx2
          have r := q.rpt (by simpa using in0)
          simp only [hdn, sm] at r
          cases rp
          · simp [hx] at r
          · simp [hx, St.upd]
        · have in0 : i < s.n := by have := q.tok; grind [b]
          have r := q.rpt (by simpa using in0)
          simp only [hdn, sm] at r
          simp [St.upd] at r ⊢
          exact r.1
        · have := q.starts
          simp only [sm, hu] at this
          simp [List.countP_cons, isStart, isRet, St.upd, this]
    · rename_i hdn
      simp only [St.upd, if_pos, Bool.not_eq_true] at hdn
      refine R.runFrom ?_ hs
      constructor
      · refine R.one i h rfl (fun j c => by simp [St.upd, c]) (fun j c => by simp [St.upd, hcn])
          (frame [] [] (by simp) (by simp) rfl rfl) ?_
        · have := q.retF hdel.1 hu hdn
          rw [← sm_ret, hcn] at this
          simpa [St.upd] using this
      · intro j hj; simp [St.upd] at hj
      · intro j d' ev k' hmm
        exact ⟨(h.inH j d' ev k' (by simp; exact .inr hmm)).1, .inl rfl⟩
      · exact tret
  · rename_i hdel
    simp only [St.upd, if_pos, Bool.and_eq_true, decide_eq_true_eq, not_and, Bool.not_eq_true] at hdel
    refine R.runFrom ?_ hs
    constructor
    · refine R.one i h rfl (fun j c => by simp [St.upd, c]) (fun j c => by simp [St.upd])
        (frame [] [] (by simp) (by simp) rfl rfl) ?_
      · have := q.ret (by
          cases hh : (s.regs i).deleted
          · exact .inl rfl
          · right; have := hdel hh; omega)
        rw [← sm_ret] at this
        simpa [St.upd] using this
    · exact h.data
    · intro j d' ev k' hmm
      exact h.inH j d' ev k' (by simp; exact .inr hmm)
    · exact tret

/-- What is known about the descriptor in the epoll set. -/
structure EB (s : St) : Prop where
  cn : s.cur = none → s.added = false ∧ s.saved = false
  cs : s.cur ≠ none → s.added = !s.saved
  arm : s.armed = true → s.added = true
  wait : ∀ c, .wait c ∈ s.th → c ≤ s.del
  got : ∀ c e, .got c e ∈ s.th → c ≤ s.del ∧ (c = s.del → s.cur ≠ none)

/-- It reports what is enabled. -/
structure EM (s : St) : Prop extends EB s where
  mask : s.armed = true → s.mRd = s.rd ∧ s.mEx = s.ex ∧ (s.mWr = true → s.wr = true)

/-- It reports, or a thread works on a report, or it has hung up and nothing is enabled but writing. -/
structure E (s : St) : Prop extends EM s where
  idle : s.cur ≠ none → s.armed = true ∨ (∃ p ∈ s.th, p.busy = true) ∨ (s.saved = true ∧ s.rd = false ∧ s.ex = false)

theorem EB.perm {s : St} {th : List Pc} (h : EB s) (e : th ⊆ s.th) : EB { s with th := th } :=
  { h with wait := fun c hm => h.wait c (e hm), got := fun c ev hm => h.got c ev (e hm) }

theorem EM.perm {s : St} {th : List Pc} (h : EM s) (e : th ⊆ s.th) : EM { s with th := th } :=
  { h.toEB.perm e with mask := h.mask }

theorem EB.mod {s : St} (h : EB s) (hc : s.cur ≠ none) : ∃ s', updateFd .mod s = some s' ∧ E s' := by
  have h2 := h.cs hc
  unfold updateFd
  cases hs : s.saved
  · simp only [hs, Bool.not_false] at h2
    refine ⟨_, by simp [ctl, h2]; rfl, ?_⟩
    refine { cn := fun x => absurd x hc, cs := fun _ => ?_, arm := fun _ => ?_, wait := h.wait, got := h.got,
             mask := fun _ => ?_, idle := fun _ => ?_ } <;> simp [h2, hs]
  · simp only [hs, Bool.not_true] at h2
    by_cases c : (!s.rd && !s.ex) = true
    · refine ⟨s, by simp [c], ?_⟩
      have na : s.armed = false := by
        cases q : s.armed
        · rfl
        · have := h.arm q; simp [h2] at this
      simp at c
      refine { cn := fun x => absurd x hc, cs := fun _ => ?_, arm := fun _ => ?_, wait := h.wait, got := h.got,
               mask := fun _ => ?_, idle := fun _ => ?_ } <;> simp_all
    · refine ⟨_, by simp only [c, if_true, reduceCtorEq, if_false, ctl, h2, Bool.false_eq_true]; rfl, ?_⟩
      refine { cn := fun x => absurd x hc, cs := fun _ => ?_, arm := fun _ => ?_, wait := h.wait, got := h.got,
               mask := fun _ => ?_, idle := fun _ => ?_ } <;> simp

theorem EB.rearm {s : St} (h : EB s) : ∃ s', rearm s = some s' ∧ E s' := by
  unfold SelFd.rearm
  by_cases c : s.cur = none
  · rw [if_pos c]
    have q := h.cn c
    have na : s.armed = false := by
      cases q' : s.armed
      · rfl
      · have := h.arm q'; simp [q.1] at this
    exact ⟨s, rfl, { h with mask := fun x => by simp [na] at x, idle := fun x => absurd c x }⟩
  · rw [if_neg c]; exact h.mod c

/-- The current registration is not released. -/
def Live (s : St) : Prop := ∀ i, s.cur = some i → (s.regs i).freed = false

theorem R.live {s : St} (h : R s) : Live s := by
  intro i hc
  have := (h.ri i).tok
  simp [hc] at this
  grind [b]

theorem EM.startCall {s : St} {en : Bool} (h : EM s) (l : Live s) :
    startCall en s = some (s, none) ∨ ∃ s1 i, startCall en s = some (s1, some i) ∧ ∀ e k, E (park (.inH i s1.data e k) s1) := by
  unfold SelFd.startCall
  split
  · split
    · exact .inl rfl
    · rename_i i hc
      right
      rw [l i hc]
      refine ⟨_, i, rfl, fun e k => ?_⟩
      refine { cn := h.cn, cs := h.cs, arm := h.arm, wait := ?_, got := ?_, mask := h.mask, idle := fun _ => .inr (.inl ⟨_, List.mem_cons_self, rfl⟩) }
      · intro c hm
        simp only [park, St.upd, List.mem_cons, reduceCtorEq, false_or] at hm
        exact h.wait c hm
      · intro c ev hm
        simp only [park, St.upd, List.mem_cons, reduceCtorEq, false_or] at hm
        exact h.got c ev hm
  · exact .inl rfl

theorem EM.run2 {s : St} {e : Evs} (h : EM s) (l : Live s) : ∃ s', run2 e s = some s' ∧ E s' := by
  unfold SelFd.run2
  rcases h.startCall (en := wanted e 2 s) l with q | ⟨s1, i, q, q2⟩
  · rw [q]; exact h.rearm
  · rw [q]; exact ⟨_, rfl, q2 e 2⟩

theorem EM.run1 {s : St} {e : Evs} (h : EM s) (l : Live s) : ∃ s', run1 e s = some s' ∧ E s' := by
  unfold SelFd.run1
  rcases h.startCall (en := wanted e 1 s) l with q | ⟨s1, i, q, q2⟩
  · rw [q]; exact h.run2 l
  · rw [q]; exact ⟨_, rfl, q2 e 1⟩

theorem EM.run0 {s : St} {e : Evs} (h : EM s) (l : Live s) : ∃ s', run0 e s = some s' ∧ E s' := by
  unfold SelFd.run0
  rcases h.startCall (en := wanted e 0 s) l with q | ⟨s1, i, q, q2⟩
  · rw [q]; exact h.run1 l
  · rw [q]; exact ⟨_, rfl, q2 e 0⟩

theorem EM.runFrom {s : St} {e : Evs} {k : Nat} (h : EM s) (l : Live s) : ∃ s', runFrom e k s = some s' ∧ E s' := by
  unfold SelFd.runFrom
  split
  · exact h.run0 l
  · exact h.run1 l
  · exact h.run2 l
  · exact h.rearm

theorem EM.del {s : St} (h : EM s) (hc : s.cur ≠ none) : ∃ s', updateFd .del s = some s' ∧ EM { s' with saved := true } ∧ Same s s' := by
  have h2 := h.cs hc
  cases hs : s.saved
  · simp only [hs, Bool.not_false] at h2
    refine ⟨{ s with added := false, armed := false, mRd := false, mWr := false, mEx := false }, by simp [updateFd, ctl, h2, hs], ?_, ⟨rfl, rfl, rfl, rfl, rfl, rfl⟩⟩
    refine { cn := fun x => absurd x hc, cs := fun _ => rfl, arm := fun x => ?_, wait := h.wait, got := h.got, mask := fun x => ?_ } <;> simp at x
  · simp only [hs, Bool.not_true] at h2
    refine ⟨s, by simp [updateFd, hs], ?_, ⟨rfl, rfl, rfl, rfl, rfl, rfl⟩⟩
    refine { cn := fun x => absurd x hc, cs := fun _ => ?_, arm := fun x => ?_, wait := h.wait, got := h.got, mask := fun x => ?_ }
    · simp [h2]
    · exact h.arm x
    · exact h.mask x

theorem EM.gotE {s : St} {c : Nat} {e : Evs} (h : EM { s with th := .got c e :: s.th }) (l : Live s) :
    ∃ s', got c e s = some s' ∧ E s' := by
  have hg := (h.got c e (by simp)).2
  have h0 : EM s := h.perm (s := { s with th := .got c e :: s.th }) (th := s.th) (by simp)
  unfold SelFd.got
  by_cases hd : c = s.del
  · have hc := hg hd
    rw [if_neg (by simp [hd])]
    split
    · obtain ⟨s1, e1, e2, e3⟩ := h0.del hc
      rw [e1]
      refine EM.run0 e2 ?_
      intro i hi
      simp only [e3.cur, e3.regs] at hi ⊢
      exact l i hi
    · exact h0.run0 l
  · rw [if_pos hd]; exact h0.rearm

/-- Both. -/
structure Inv (s : St) : Prop where
  r : R s
  e : E s

theorem E.of {s s' : St} (h : E s) (e1 : s'.cur = s.cur) (e2 : s'.added = s.added) (e3 : s'.saved = s.saved)
    (e4 : s'.armed = s.armed) (e5 : s'.rd = s.rd ∧ s'.wr = s.wr ∧ s'.ex = s.ex)
    (e6 : s'.mRd = s.mRd ∧ s'.mWr = s.mWr ∧ s'.mEx = s.mEx) (e7 : s.del ≤ s'.del) (e8 : ∀ c, .wait c ∈ s'.th → c ≤ s'.del)
    (e9 : ∀ c e, .got c e ∈ s'.th → .got c e ∈ s.th) (e10 : ∀ p ∈ s.th, p.busy = true → p ∈ s'.th) : E s' := by
  obtain ⟨r1, r2, r3⟩ := e5
  obtain ⟨m1, m2, m3⟩ := e6
  refine { cn := ?_, cs := ?_, arm := ?_, wait := e8, got := fun c e hm => ?_, mask := ?_, idle := ?_ }
  · rw [e1, e2, e3]; exact h.cn
  · rw [e1, e2, e3]; exact h.cs
  · rw [e4, e2]; exact h.arm
  · have := h.got c e (e9 c e hm)
    rw [e1]
    exact ⟨by omega, fun x => this.2 (by omega)⟩
  · rw [e4, r1, r2, r3, m1, m2, m3]; exact h.mask
  · rw [e1, e4, e3, r1, r3]
    intro hc
    rcases h.idle hc with x | ⟨p, x, y⟩ | x
    · exact .inl x
    · exact .inr (.inl ⟨p, e10 p x y, y⟩)
    · exact .inr (.inr x)

theorem E.same {s s' : St} (h : E s) (e : s' = { s with regs := s'.regs, data := s'.data, n := s'.n, tr := s'.tr }) : E s' := by
  rw [e]
  exact { h with }

/-- The conditions under which the invariant is kept: handlers are set only while no handler of the descriptor runs, and a
registration is replaced only while the descriptor has not hung up. -/
def Pre (s : St) : Act → Prop
  | .set _ => NoH s ∧ (s.cur = none ∨ s.saved = false)
  | _ => True

theorem Inv.set {s : St} {d : Bool} (h : Inv s) (hp : Pre s (.set d)) : ∃ s', exec (.set d) s = some s' ∧ Inv s' := by
  obtain ⟨hh, hc⟩ := hp
  suffices q : ∃ s', exec (.set d) s = some s' ∧ E s' by
    obtain ⟨s', q1, q2⟩ := q
    exact ⟨s', q1, h.r.set hh q1, q2⟩
  have he := h.e
  simp only [exec, SelFd.set]
  split
  · rename_i hn
    obtain ⟨n1, n2⟩ := he.cn hn
    refine ⟨_, by simp [updateFd, ctl, n1, n2, St.upd]; rfl, ?_⟩
    refine { cn := fun x => ?_, cs := fun _ => ?_, arm := fun _ => ?_, wait := he.wait, got := fun c e hm => ?_, mask := fun _ => ?_, idle := fun _ => .inl rfl }
    · simp at x
    · rfl
    · rfl
    · exact ⟨(he.got c e hm).1, fun _ => by simp⟩
    · simp
  · rename_i o ho
    have hs : s.saved = false := by rcases hc with x | x; · simp [x] at ho
                                    · exact x
    have ha := he.cs (by simp [ho])
    rw [hs] at ha
    have base : EB { { s.upd s.n (fun _ => { done := d }) with n := s.n + 1, cur := some s.n, data := some s.n } with saved := false, del := s.del + 1, tr := .set s.n d :: .gone o true :: s.tr, regs := fun j => if j = o then { (s.upd s.n (fun _ => { done := d })).regs o with data := s.data } else (s.upd s.n (fun _ => { done := d })).regs j } := by
      refine { cn := fun x => ?_, cs := fun _ => ?_, arm := he.arm, wait := fun c hm => ?_, got := fun c e hm => ⟨?_, fun _ => by simp⟩ }
      · simp at x
      · exact ha
      · have := he.wait c hm; show c ≤ s.del + 1; omega
      · have := (he.got c e hm).1; show c ≤ s.del + 1; omega
    obtain ⟨s1, e1, e2⟩ := base.mod (by simp)
    refine ⟨_, by rw [e1]; rfl, ?_⟩
    refine e2.of rfl rfl rfl rfl ⟨rfl, rfl, rfl⟩ ⟨rfl, rfl, rfl⟩ (Nat.le_refl _) ?_ ?_ ?_
    · intro c hm
      simp only [park, List.mem_cons, reduceCtorEq, false_or] at hm
      exact e2.wait c hm
    · intro c e hm
      simpa [park] using hm
    · intro p hm _
      simp [park, hm]

theorem Inv.clear {s : St} {rpt : Bool} (h : Inv s) : ∃ s', exec (.clear rpt) s = some s' ∧ Inv s' := by
  have he := h.e
  simp only [exec, SelFd.clear]
  split
  · rename_i hc
    obtain ⟨n1, n2⟩ := he.cn hc
    have na : s.armed = false := by
      cases q' : s.armed
      · rfl
      · have := he.arm q'; simp [n1] at this
    refine ⟨_, rfl, ⟨?_, ?_, ?_, h.r.tr⟩, ?_⟩
    · have := h.r.ri
      simp only [hc] at this
      exact this
    · intro i x; simp [initFd] at x
    · intro i d e k hm; exact ⟨(h.r.inH i d e k hm).1, .inl rfl⟩
    · refine { cn := fun _ => ⟨n1, n2⟩, cs := fun x => absurd rfl x, arm := he.arm, wait := he.wait, got := fun c e hm => ?_, mask := fun x => ?_, idle := fun x => absurd rfl x }
      · have := he.got c e hm
        exact ⟨this.1, fun x => absurd hc (this.2 x)⟩
      · simp [initFd, na] at x
  · rename_i o hc
    obtain ⟨s1, e1, e2⟩ : ∃ s1, updateFd .del { s with cur := none } = some s1 ∧ s1.added = false ∧ s1.armed = false ∧ s1.del = s.del := by
      have ha := he.cs (by simp [hc])
      cases hs : s.saved
      · rw [hs] at ha
        have ha : s.added = true := ha
        exact ⟨{ s with cur := none, added := false, armed := false, mRd := false, mWr := false, mEx := false },
          by simp [updateFd, hs, ctl, ha], rfl, rfl, rfl⟩
      · rw [hs] at ha
        refine ⟨{ s with cur := none }, by simp [updateFd, hs], ha, ?_, rfl⟩
        cases q' : s.armed
        · rfl
        · have := he.arm q'; simp [ha] at this
    have sa := updateFd_same e1
    have hl := h.r.live o hc
    have e3 : ∃ s2, clearReg rpt o s1 = some s2 ∧ s2.added = false ∧ s2.armed = false ∧ s2.del = s.del ∧ s2.th = s.th := by
      simp only [clearReg, sa.regs, hl]
      exact ⟨_, rfl, e2.1, e2.2.1, e2.2.2, sa.th⟩
    obtain ⟨s2, e3, a1, a2, a3, a4⟩ := e3
    refine ⟨_, by rw [e1]; simp only [Option.bind_eq_bind, Option.bind_some]; rw [e3]; rfl, ?_, ?_⟩
    · exact h.r.clear hc sa e3 rfl
    · refine { cn := fun _ => ⟨a1, rfl⟩, cs := fun x => absurd rfl x, arm := fun x => ?_, wait := fun c hm => ?_, got := fun c e hm => ?_, mask := fun x => ?_, idle := fun x => absurd rfl x }
      · simp [initFd, a2] at x
      · simp only [initFd, a4] at hm
        have := he.wait c hm
        show c ≤ s2.del + 1
        omega
      · simp only [initFd, a4] at hm
        have := (he.got c e hm).1
        refine ⟨?_, fun x => ?_⟩
        · show c ≤ s2.del + 1; omega
        · have : c = s2.del + 1 := x
          omega
      · simp [initFd, a2] at x

theorem Inv.enable {s : St} {d : Dir} {v : Bool} (h : Inv s) : ∃ s', exec (.enable d v) s = some s' ∧ Inv s' := by
  simp only [exec, SelFd.enable]
  split
  · exact ⟨s, rfl, h⟩
  split
  · exact ⟨s, rfl, h⟩
  rename_i hc _
  have b0 : EB (s.setEn v d) := by cases d <;> exact { h.e.toEB with }
  have c0 : (s.setEn v d).cur = s.cur := by cases d <;> rfl
  obtain ⟨s', e1, e2⟩ := b0.mod (by rw [c0]; exact hc)
  refine ⟨s', e1, ?_, e2⟩
  have r0 : R (s.setEn v d) := by
    cases d <;> exact ⟨h.r.ri, h.r.data, h.r.inH, h.r.tr⟩
  exact r0.same (updateFd_same e1)

theorem Inv.event {s : St} {i : Nat} {e : Evs} (h : Inv s) (hn : En s (.event i e)) : ∃ s', exec (.event i e) s = some s' ∧ Inv s' := by
  obtain ⟨ha, _, _, _, c, hc⟩ := hn
  simp only [exec, SelFd.event, hc]
  refine ⟨_, rfl, ?_, ?_⟩
  · have r0 := (h.r.pick hc).noPc (s := { s with th := s.th.eraseIdx i }) rfl
    constructor
    · intro j
      have := r0.ri j
      dsimp only at this ⊢
      rw [sm_pc (by simp [Pc.on])]
      exact this
    · exact h.r.data
    · intro j d e' k hm
      simp only [List.mem_cons, reduceCtorEq, false_or] at hm
      exact r0.inH j d e' k hm
    · exact h.r.tr
  · have he := h.e
    have sub := List.eraseIdx_subset (l := s.th) (k := i)
    have hcur : s.cur ≠ none := fun x => by have := he.arm ha; simp [he.cn x] at this
    refine { cn := he.cn, cs := he.cs, arm := fun x => ?_, wait := fun c' hm => ?_, got := fun c' e' hm => ?_, mask := fun x => ?_, idle := fun _ => .inr (.inl ⟨_, List.mem_cons_self, rfl⟩) }
    · simp at x
    · simp only [List.mem_cons, reduceCtorEq, false_or] at hm
      exact he.wait c' (sub hm)
    · simp only [List.mem_cons] at hm
      rcases hm with hm | hm
      · cases hm
        exact ⟨he.wait c (List.mem_of_getElem? hc), fun _ => hcur⟩
      · exact he.got c' e' (sub hm)
    · simp at x

theorem Inv.runner {s : St} {i : Nat} (h : Inv s) (hn : En s (.runner i)) : ∃ s', exec (.runner i) s = some s' ∧ Inv s' := by
  have hq : (s.regs i).queued = true := hn
  have nf : (s.regs i).freed = false := by
    have := (h.r.ri i).tok
    simp [hq] at this
    grind [b]
  obtain ⟨s', e1, e2⟩ : ∃ s', SelFd.runner i s = some s' ∧ E s' := by
    simp only [SelFd.runner, nf]
    refine ⟨_, rfl, ?_⟩
    split <;> exact { h.e with }
  exact ⟨s', e1, h.r.runner hq e1, e2⟩

/-- Other threads. -/
theorem E.erase {s : St} {i : Nat} {p : Pc} (h : E s) (e : s.th[i]? = some p) (hp : p.busy = false) : E { s with th := s.th.eraseIdx i } := by
  have sub := List.eraseIdx_subset (l := s.th) (k := i)
  refine h.of rfl rfl rfl rfl ⟨rfl, rfl, rfl⟩ ⟨rfl, rfl, rfl⟩ (Nat.le_refl _) (fun c hm => h.wait c (sub hm)) (fun c e hm => sub hm) ?_
  intro q hq hb
  have := (perm_erase e).symm.subset hq
  simp only [List.mem_cons] at this
  rcases this with rfl | x
  · simp [hp] at hb
  · exact x

theorem Inv.cont {s : St} {i : Nat} (h : Inv s) (hn : En s (.cont i)) : ∃ s', exec (.cont i) s = some s' ∧ Inv s' := by
  have hn : i < s.th.length := hn
  have hp : s.th[i]? = some s.th[i] := by simp [hn]
  generalize s.th[i] = p at hp
  simp only [exec, hp]
  have r0 := h.r.pick hp
  have sub := List.eraseIdx_subset (l := s.th) (k := i)
  have m0 : EM { s with th := p :: s.th.eraseIdx i } := h.e.toEM.perm (perm_erase hp).subset
  have m1 : EM { s with th := s.th.eraseIdx i } := h.e.toEM.perm sub
  have l0 : Live { s with th := s.th.eraseIdx i } := h.r.live
  generalize hs0 : ({ s with th := s.th.eraseIdx i } : St) = s0 at *
  have r1 : R { s0 with th := p :: s0.th } := by rw [← hs0]; exact r0
  have m2 : EM { s0 with th := p :: s0.th } := by rw [← hs0]; exact m0
  have e1 : p.busy = false → E s0 := fun hb => by rw [← hs0]; exact h.e.erase hp hb
  clear r0 m0
  cases p with
  | wait c =>
    exact ⟨s0, rfl, r1.noPc rfl, e1 rfl⟩
  | got c e =>
    obtain ⟨s', g1, g2⟩ := m2.gotE l0
    exact ⟨s', g1, r1.got g1, g2⟩
  | setA o =>
    have q := (r1.ri o)
    have nf : (s0.regs o).freed = false := by
      have q1 := q.tok
      simp [sm, cn, Pc.isA] at q1
      grind [b]
    have e0 := e1 rfl
    obtain ⟨s', g1, g2⟩ : ∃ s', SelFd.setA o s0 = some s' ∧ E s' := by
      simp only [SelFd.setA, nf]
      refine ⟨_, rfl, ?_⟩
      refine e0.of rfl rfl rfl rfl ⟨rfl, rfl, rfl⟩ ⟨rfl, rfl, rfl⟩ (Nat.le_refl _) ?_ ?_ ?_
      · intro c hm
        simp only [park, St.upd, List.mem_cons, reduceCtorEq, false_or] at hm
        exact e0.wait c hm
      · intro c e hm
        simpa [park, St.upd] using hm
      · intro p hm _
        simp [park, St.upd, hm]
    exact ⟨s', g1, r1.setA g1, g2⟩
  | setB o =>
    have q := (r1.ri o)
    have nf : (s0.regs o).freed = false := by
      have q1 := q.tok
      simp [sm, cn, Pc.isB] at q1
      grind [b]
    have e0 := e1 rfl
    obtain ⟨s', g1, g2⟩ : ∃ s', SelFd.setB o s0 = some s' ∧ E s' := by
      simp only [SelFd.setB, nf]
      by_cases c : (s0.regs o).use = 0
      · simp only [c]
        exact ⟨_, rfl, { e0 with }⟩
      · simp only [c]
        exact ⟨_, rfl, { e0 with }⟩
    exact ⟨s', g1, r1.setB g1, g2⟩
  | inH j d e k =>
    have q := (r1.ri j)
    dsimp only at q
    rw [sm_inH] at q
    have hu := q.use
    have nf : (s0.regs j).freed = false := by
      have q1 := q.fD
      cases g : (s0.regs j).freed
      · rfl
      · have := (q1 g).2; simp only at hu; omega
    have hu0 : (s0.regs j).use ≠ 0 := by simp only at hu; omega
    obtain ⟨s', g1, g2⟩ : ∃ s', SelFd.retH j d e k s0 = some s' ∧ E s' := by
      simp only [SelFd.retH, nf, hu0, decide_false, Bool.or_false, Bool.false_eq_true, if_false]
      have key : ∀ s1 : St, s1.cur = s0.cur → s1.added = s0.added → s1.saved = s0.saved → s1.armed = s0.armed →
          s1.rd = s0.rd → s1.wr = s0.wr → s1.ex = s0.ex → s1.mRd = s0.mRd → s1.mWr = s0.mWr → s1.mEx = s0.mEx → s1.del = s0.del → s1.th = s0.th → EM s1 := by
        intro s1 k1 k2 k3 k4 k5 k6 k7 k8 k9 k10 k11 k12
        refine { cn := ?_, cs := ?_, arm := ?_, wait := ?_, got := ?_, mask := ?_ }
        · rw [k1, k2, k3]; exact m1.cn
        · rw [k1, k2, k3]; exact m1.cs
        · rw [k4, k2]; exact m1.arm
        · rw [k11, k12]; exact m1.wait
        · rw [k1, k11, k12]; exact m1.got
        · rw [k4, k5, k6, k7, k8, k9, k10]; exact m1.mask
      split
      · rename_i hdel
        simp only [St.upd, if_pos, Bool.and_eq_true, decide_eq_true_eq] at hdel
        have hcn : s0.cur = none := by
          rcases (r1.inH j d e k (by simp)).2 with x | x
          · exact x
          · have := q.curD (by simp [show s0.cur = some j from x]); simp [this] at hdel
        split
        · refine ⟨_, rfl, ?_⟩
          obtain ⟨n1, n2⟩ := m1.cn hcn
          have na : s0.armed = false := by
            cases q' : s0.armed
            · rfl
            · have := m1.arm q'; simp [n1] at this
          refine { cn := fun _ => ⟨n1, n2⟩, cs := fun x => absurd rfl x, arm := m1.arm, wait := fun c hm => ?_, got := fun c e' hm => ?_, mask := m1.mask, idle := fun x => absurd rfl x }
          · simp only [park, St.upd, List.mem_cons, reduceCtorEq, false_or] at hm
            exact m1.wait c hm
          · simp only [park, St.upd, List.mem_cons, reduceCtorEq, false_or] at hm
            have := m1.got c e' hm
            exact ⟨this.1, fun x => absurd hcn (this.2 x)⟩
        · refine EM.runFrom (key _ ?_ rfl rfl rfl rfl rfl rfl rfl rfl rfl rfl rfl) ?_
          · exact hcn.symm
          · intro i' hi'; simp [St.upd] at hi'
      · refine EM.runFrom (key _ rfl rfl rfl rfl rfl rfl rfl rfl rfl rfl rfl rfl) ?_
        intro i' hi'
        have := l0 i' hi'
        simp only [St.upd]
        split <;> exact this
    exact ⟨s', g1, r1.retH g1, g2⟩
  | inDone j e k =>
    have q := (r1.ri j)
    dsimp only at q
    rw [sm_inDone] at q
    have nf : (s0.regs j).freed = false := by
      have q1 := q.tok
      simp at q1
      grind [b]
    have hcn : s0.cur ≠ some j := by
      intro x
      have q1 := q.tok
      simp [x] at q1
      grind [b]
    obtain ⟨s', g1, g2⟩ : ∃ s', SelFd.retDone j e k s0 = some s' ∧ E s' := by
      simp only [SelFd.retDone, nf]
      refine EM.runFrom (s := s0.upd j _) { m1 with } ?_
      intro i' hi'
      have := l0 i' hi'
      simp only [St.upd]
      split
      · rename_i c; subst c; exact absurd hi' hcn
      · exact this
    exact ⟨s', g1, r1.retDone g1, g2⟩

theorem Inv.step {s : St} {a : Act} (h : Inv s) (hn : En s a) (hp : Pre s a) : ∃ s', exec a s = some s' ∧ Inv s' := by
  cases a with
  | set d => exact h.set hp
  | clear rpt => exact h.clear
  | enable d v => exact h.enable
  | other =>
    refine ⟨_, rfl, ⟨h.r.ri, h.r.data, h.r.inH, h.r.tr⟩, ?_⟩
    refine h.e.of rfl rfl rfl rfl ⟨rfl, rfl, rfl⟩ ⟨rfl, rfl, rfl⟩ (Nat.le_succ _) (fun c hm => ?_) (fun c e hm => hm) (fun p hm _ => hm)
    have := h.e.wait c hm
    show c ≤ s.del + 1
    omega
  | wait =>
    refine ⟨_, rfl, ?_, ?_⟩
    · constructor
      · intro i
        have := h.r.ri i
        simp only [park]
        rw [sm_pc (by simp [Pc.on])]
        exact this
      · exact h.r.data
      · intro j d e' k hm
        simp only [park, List.mem_cons, reduceCtorEq, false_or] at hm
        exact h.r.inH j d e' k hm
      · exact h.r.tr
    · refine h.e.of rfl rfl rfl rfl ⟨rfl, rfl, rfl⟩ ⟨rfl, rfl, rfl⟩ (Nat.le_refl _) (fun c hm => ?_) (fun c e hm => ?_) (fun p hm _ => ?_)
      · simp only [park, List.mem_cons] at hm
        rcases hm with hm | hm
        · cases hm; exact Nat.le_refl _
        · exact h.e.wait c hm
      · simpa [park] using hm
      · simp [park, hm]
  | event i e => exact h.event hn
  | cont i => exact h.cont hn
  | runner i => exact h.runner hn

theorem Inv.init : Inv {} := by
  refine ⟨⟨fun i => ?_, ?_, ?_, trivial⟩, ?_⟩
  · constructor <;> simp [sm, cn]
  · intro i h; simp at h
  · intro i d e k h; simp at h
  · refine { cn := ?_, cs := ?_, arm := ?_, wait := ?_, got := ?_, mask := ?_, idle := ?_ } <;> simp

end Gensio.SelFd
