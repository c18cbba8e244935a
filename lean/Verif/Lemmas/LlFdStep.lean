import Verif.Lemmas.LlFd

/-! The steps of the descriptor layer keep the invariants, see `Verif.Lemmas.LlFd`. -/

namespace Gensio.LlFd

set_option maxHeartbeats 1000000

/-- The state of the registration and the handlers enabled for descriptor `i` may differ between `f` and `g`. -/
structure UpdC (i : Nat) (f g : Nat → Iod) : Prop where
  oth : ∀ j, j ≠ i → f j = g j
  cl : (f i).isClosed = (g i).isClosed

theorem Upd.toC {i : Nat} {f g : Nat → Iod} (u : Upd i f g) : UpdC i f g := ⟨u.oth, u.cl⟩
theorem UpdC.trans {i : Nat} {f g h : Nat → Iod} (a : UpdC i f g) (b : UpdC i g h) : UpdC i f h :=
  ⟨fun j hj => (a.oth j hj).trans (b.oth j hj), a.cl.trans b.cl⟩

theorem Desc.updC {s s' : St} {i : Nat} (h : Desc s) (e : s.iod = some i) (u : UpdC i s'.iods s.iods) (hi' : s'.iod = s.iod)
    (hn : s'.nIod = s.nIod) : Desc s' := by
  obtain ⟨a, b, c⟩ := h
  constructor
  · intro j hj
    rw [hi'] at hj
    have : j ≠ i := fun h => hj (by rw [h]; exact e)
    rw [u.oth j this]; exact a j hj
  · intro j hj hj'
    rw [hi'] at hj'
    rw [hn] at hj
    have : j ≠ i := fun h => hj' (by rw [h]; exact e)
    rw [u.oth j this]; exact b j hj hj'
  · intro j hj
    rw [hi'] at hj
    have : j = i := by rw [e] at hj; simpa using hj.symm
    subst this
    rw [u.cl, hn]; exact c j hj

theorem Hist.frame {s s' : St} (h : Hist s) (h1 : s'.ev = s.ev) (h2 : s'.openDone = s.openDone) (h3 : s'.nOpen = s.nOpen)
    (h4 : s'.closeDone = s.closeDone) (h5 : s'.nClose = s.nClose) : Hist s' := by
  obtain ⟨e1, e2, e3, e4, e5, e6, e7⟩ := h
  constructor <;> simp only [h1, h2, h3, h4, h5] <;> assumption

/-- `Inv` for a state with the same descriptor. -/
theorem Inv.frameC {x x' : X} {s s' : St} {i : Nat} (h : Inv x s) (hi : s.iod = some i) (u : UpdC i s'.iods s.iods)
    (hth : s'.th = s.th) (hi' : s'.iod = s.iod) (hn : s'.nIod = s.nIod) (hh : Hist s')
    (c : Core (x'.add (tot s.th)) (s'.iods i) s') : Inv x' s' := by
  obtain ⟨a, b, d, e⟩ := h
  have hc : cur s' = s'.iods i := by simp only [cur, hi', hi]
  exact ⟨by rw [hc, hth]; exact c, by intro t ht; rw [hth] at ht; rw [hi']; exact b t ht, d.updC hi u hi' hn, hh⟩

/-- The same with a thread more. -/
theorem Inv.pushC {x : X} {s s' : St} {i : Nat} {pc : Pc} {hd : Option Nat} (h : Inv x s) (hi : s.iod = some i)
    (u : UpdC i s'.iods s.iods) (hth : s'.th = ⟨pc, hd⟩ :: s.th) (hi' : s'.iod = s.iod) (hn : s'.nIod = s.nIod) (hh : Hist s')
    (ok : Th.ok ⟨pc, hd⟩) (hd' : hd = none ∨ hd = s.iod)
    (c : Core ((xOf ⟨pc, hd⟩).add (tot s.th)) (s'.iods i) s') : Inv x0 s' := by
  obtain ⟨a, b, d, e⟩ := h
  have hc : cur s' = s'.iods i := by simp only [cur, hi', hi]
  refine ⟨by rw [hc, hth, x0_add]; exact c, ?_, d.updC hi u hi' hn, hh⟩
  intro t ht
  rw [hth] at ht
  rw [hi']
  rcases List.mem_cons.1 ht with rfl | ht
  · exact ⟨ok, hd'⟩
  · exact b t ht

/-- Releasing a reference of the thread at the end. -/
theorem Inv.fin {r : Nat} {s : St} (h : Inv { ref := r } s) (e : r = 1) : Ok (LlFd.derefUnlock s) := by
  subst e
  obtain ⟨s', e, k⟩ := Inv.derefUnlock (x := x0) h
  exact ⟨s', e, k⟩

theorem Inv.refPos {x : X} {s : St} (h : Inv x s) (e : s.iod.isSome = true ∨ s.freed = false ∨ s.defPend = true ∨ 0 < x.ref) : 0 < s.ref := by
  have := h.core.refc
  simp only [X.add] at this
  rcases e with e | e | e | e
  · simp only [e, b2n_true] at this; omega
  · simp only [e, Bool.not_false, b2n_true] at this; omega
  · simp only [e, b2n_true] at this; omega
  · omega

theorem Inv.lockRef {x : X} {s : St} (h : Inv x s)
    (e : s.iod.isSome = true ∨ s.freed = false ∨ s.defPend = true ∨ 0 < x.ref) : lock s = some s := lock_ok h (h.refPos e)

theorem Inv.ref {x : X} {s : St} (h : Inv x s) (r : 0 < s.ref) :
    ∃ s', LlFd.ref s = some s' ∧ s' = { s with ref := s.ref + 1 } ∧ Inv { x with ref := x.ref + 1 } s' := by
  refine ⟨_, if_pos r, rfl, ?_⟩
  refine h.frame rfl rfl rfl rfl rfl rfl rfl rfl rfl ?_
  have c := h.core
  have q := h.cnt
  generalize tot s.th = k at *
  generalize cur s = d at *
  cases c; cases q
  leaf

/-- Setting the write and the except handler of the descriptor in use. -/
theorem wrExI {s : St} {i : Nat} (hi : s.iod = some i) (b : Bool) (g : St → Bool) (hc : (s.iods i).isClosed = false) :
    ∃ f, (setWr s s.iod b).bind (fun s => setEx s s.iod (g s)) = some { s with iods := f } ∧ Upd i f s.iods ∧
      (f i).rd = (s.iods i).rd ∧ (f i).wr = if (s.iods i).reg = .active then b else (s.iods i).wr := by
  obtain ⟨f, e, u, a1, a2⟩ := setWr_ok (s := s) b hc
  obtain ⟨k, e', u', a1', a2'⟩ := setEx_ok (s := { s with iods := f }) (i := i) (g { s with iods := f }) (by rw [u.cl]; exact hc)
  have e2 : setWr s s.iod b = some { s with iods := f } := by rw [← e, hi]
  have e3 : setEx { s with iods := f } s.iod (g { s with iods := f }) = some { s with iods := k } := by rw [← e', hi]
  rw [e2, Option.bind_some]
  exact ⟨k, e3, u'.trans u, a1'.trans a1, a2'.trans a2⟩

/-- Setting the read and the except handler of the descriptor in use. -/
theorem rdExI {s : St} {i : Nat} (hi : s.iod = some i) (b : Bool) (g : St → Bool) (hc : (s.iods i).isClosed = false) :
    ∃ f, (setRd s s.iod b).bind (fun s => setEx s s.iod (g s)) = some { s with iods := f } ∧ Upd i f s.iods ∧
      (f i).wr = (s.iods i).wr ∧ (f i).rd = if (s.iods i).reg = .active then b else (s.iods i).rd := by
  obtain ⟨f, e, u, a1, a2⟩ := setRd_ok (s := s) b hc
  obtain ⟨k, e', u', a1', a2'⟩ := setEx_ok (s := { s with iods := f }) (i := i) (g { s with iods := f }) (by rw [u.cl]; exact hc)
  have e2 : setRd s s.iod b = some { s with iods := f } := by rw [← e, hi]
  have e3 : setEx { s with iods := f } s.iod (g { s with iods := f }) = some { s with iods := k } := by rw [← e', hi]
  rw [e2, Option.bind_some]
  exact ⟨k, e3, u'.trans u, a2'.trans a1, a1'.trans a2⟩

/-- Arming the handlers after an open. -/
theorem arms_ok {s : St} {i : Nat} (hi : s.iod = some i) (hc : (s.iods i).isClosed = false) (hr : (s.iods i).reg = .active) :
    ∃ f, ((if s.rdEn then setRd s s.iod true else some s).bind fun s =>
      (if s.wrEn then setWr s s.iod true else some s).bind fun s => setEx s s.iod (s.rdEn || s.wrEn)) = some { s with iods := f } ∧
      Upd i f s.iods ∧ (s.rdEn = true → (f i).rd = true) ∧ (s.wrEn = true → (f i).wr = true) := by
  have h1 : ∃ f, (if s.rdEn then setRd s s.iod true else some s) = some { s with iods := f } ∧ Upd i f s.iods ∧
      (s.rdEn = true → (f i).rd = true) := by
    by_cases e : s.rdEn = true
    · rw [if_pos e]
      obtain ⟨f, e1, u, a, b⟩ := setRd_ok (s := s) true hc
      exact ⟨f, by rw [← e1, hi], u, by simp [b, hr]⟩
    · rw [if_neg e]
      exact ⟨s.iods, rfl, Upd.refl _ _, fun h => absurd h e⟩
  obtain ⟨f, e1, u, b⟩ := h1
  rw [e1, Option.bind_some]
  have h2 : ∃ g, (if s.wrEn then setWr { s with iods := f } s.iod true else some { s with iods := f }) = some { s with iods := g } ∧
      Upd i g f ∧ (g i).rd = (f i).rd ∧ (s.wrEn = true → (g i).wr = true) := by
    by_cases e : s.wrEn = true
    · rw [if_pos e]
      obtain ⟨g, e2, u2, a2, b2⟩ := setWr_ok (s := { s with iods := f }) (i := i) true (by rw [u.cl]; exact hc)
      exact ⟨g, by rw [← e2, hi], u2, a2, by simp [b2, u.reg, hr]⟩
    · rw [if_neg e]
      exact ⟨f, rfl, Upd.refl _ _, rfl, fun h => absurd h e⟩
  obtain ⟨g, e2, u2, a2, b2⟩ := h2
  have u2' := u2.trans u
  dsimp only at e2 ⊢
  rw [e2, Option.bind_some]
  obtain ⟨k, e3, u3, a3, b3⟩ := setEx_ok (s := { s with iods := g }) (i := i) (s.rdEn || s.wrEn) (by rw [u2'.cl]; exact hc)
  dsimp only at e3 ⊢
  exact ⟨k, by rw [← e3, hi], u3.trans u2', fun h => by rw [a3, a2]; exact b h, fun h => by rw [b3]; exact b2 h⟩

theorem openRet_ok {c : Cfg} {s : St} {a : Arg} {e : Nat} {k : Ret} {hd : Option Nat} (h : Inv (xOf ⟨.opCb e k, hd⟩) s)
    (hk : k = .fin ∨ k = .runB) : Ok (openRet c s a k) := by
  have hdp : k = .runB → s.defPend = true ∧ s.dOpen = false := by
    rintro rfl
    have h1 := h.core.run; have h2 := h.core.late
    simp [X.add, xOf, Pc.run, Pc.late] at h1 h2
    refine ⟨?_, h2 (by omega) |>.1⟩
    cases hdp : s.defPend with
    | true => rfl
    | false => simp [hdp] at h1
  have hl : lock s = some s := by
    apply h.lockRef
    rcases hk with rfl | rfl
    · simp [xOf, Pc.ref]
    · simp [(hdp rfl).1]
  unfold openRet
  rw [hl]
  simp only [Option.bind_eq_bind, Option.bind_some]
  have key : ∃ s', armAll s = some s' ∧ s'.dOpen = s.dOpen ∧ Inv { ref := if k = .fin then 1 else 0, run := if k = .fin then 0 else 1, ob := if k = .fin then 0 else 1 } s' := by
    unfold armAll
    by_cases o : s.st = .opened
    · rw [if_pos o]
      obtain ⟨i, hi, hr, hc⟩ := h.active (Or.inl o)
      obtain ⟨f, e1, u, b1, b2⟩ := arms_ok hi hc hr
      refine ⟨_, e1, rfl, h.frameU hi u rfl rfl rfl rfl rfl rfl rfl rfl ?_⟩
      have cc := h.core' hi
      have q := h.cnt
      have ur := u.reg
      generalize tot s.th = m at *
      dsimp only
      rcases hk with rfl | rfl
      · cases cc; cases q
        leaf
      · cases cc; cases q
        leaf
    · rw [if_neg o]
      refine ⟨s, rfl, rfl, h.frame rfl rfl rfl rfl rfl rfl rfl rfl rfl ?_⟩
      have cc := h.core
      have q := h.cnt
      generalize tot s.th = m at *
      generalize cur s = d at *
      rcases hk with rfl | rfl
      · cases cc; cases q
        leaf
      · cases cc; cases q
        leaf
  obtain ⟨s', e1, e2, k'⟩ := key
  rw [e1, Option.bind_some]
  rcases hk with rfl | rfl
  · exact k'.fin rfl
  · exact runB_ok (o := 1) k' (by rw [e2]; exact (hdp rfl).2)

theorem closeRet_ok {s : St} (h : Inv (xOf ⟨.clCb, none⟩) s) : Ok (closeRet s) := by
  have h1 := h.core.run; have h2 := h.core.late; have h3 := h.core.clcb; have h4 := h.core.refc
  simp [X.add, xOf, Pc.run, Pc.late, Pc.cc] at h1 h2 h3 h4
  have dp : s.defPend = true := by
    cases hdp : s.defPend with
    | true => rfl
    | false => simp [hdp] at h1
  have h2 := h2 (by omega)
  have h3 := h3 (by omega)
  have r : s.ref > 1 := by simp only [dp, b2n_true] at h4; omega
  unfold closeRet
  rw [lock_ok h (by omega)]
  simp only [Option.bind_eq_bind, Option.bind_some, deref, if_pos r]
  refine runE_ok (o := 0) ?_ h2.1 h3.1 h3.2.2.2
  refine h.frame rfl rfl rfl rfl rfl rfl rfl rfl rfl ?_
  have c := h.core
  have q := h.cnt
  generalize tot s.th = k at *
  generalize cur s = d at *
  cases c; cases q
  leaf

end Gensio.LlFd
