import Verif.Lemmas.LlFdClr

/-! The functions called by the user of the descriptor layer keep the invariants, see `Verif.Lemmas.LlFd`. -/

namespace Gensio.LlFd

set_option maxHeartbeats 1000000

/-- The rest of `fd_close` when the descriptor is in use and its handlers are set. -/
theorem closeSet_active {s : St} {i n oe : Nat} {b dO dP : Bool} (h : Inv x0 s) (hi : s.iod = some i) (hr : (s.iods i).reg = .active)
    (hf : s.freed = false) (hq : s.closeReq = false)
    (hs : (dO = false ∧ oe = s.openErr ∧ n = s.ref ∧ b = s.runQ ∧ dP = s.defPend ∧ (s.st = .opened ∨ s.st = .errWait)) ∨
      (dO = true ∧ oe ≠ 0 ∧ s.st = .inOpen ∧ dP = true ∧ n + b2n s.defPend = s.ref + 1 ∧ (s.defPend = true → b = s.runQ) ∧
        (s.defPend = false → b = true))) :
    Ok (closeSet { s with openErr := oe, dOpen := dO, ref := n, runQ := b, defPend := dP }) := by
  have c := h.core' hi
  have q := h.cnt
  have hc := h.open_ hi
  have rp : 1 < n := by
    have := c.refc
    simp only [X.add, hi, hf, Option.isSome_some, Bool.not_false, b2n_true] at this
    rcases hs with hs | ⟨_, _, _, _, h5, _, _⟩
    · omega
    · have : b2n s.defPend ≤ 1 := by unfold b2n; split <;> omega
      omega
  have cl : closing s.ev = false := by
    rw [c.cls]
    cases e : s.closeDone.isSome with
    | false => rfl
    | true => have := (c.clr e).1; rw [hq] at this; cases this
  unfold closeSet startClose
  simp only [Option.bind_eq_bind]
  rw [if_neg (by simp [hi]), if_pos (by rcases hs with ⟨_, _, _, _, _, h6 | h6⟩ | ⟨_, _, h6, _⟩ <;> simp [h6])]
  have e0 := stopClear_ok (s := { s with openErr := oe, dOpen := dO, ref := n, runQ := b, defPend := dP, closeDone := some s.nClose, nClose := s.nClose + 1 })
    hi hc hr c.tmRun rp
  obtain ⟨r', t, b', f, e, u, n1, n2, u2, b3⟩ := e0
  rw [e]
  simp only [Option.bind_some]
  refine ⟨_, rfl, h.frameC hi u2 rfl rfl rfl { h.hist.closeAcc cl with } ?_⟩
  have e1 : opening (Ev.closeAcc s.nClose :: s.ev) = opening s.ev := rfl
  have e2 : closing (Ev.closeAcc s.nClose :: s.ev) = true := rfl
  simp only [St.log, Nat.add_sub_cancel]
  generalize tot s.th = k at *
  clear h e
  rcases hs with hs | hs
  · obtain ⟨rfl, rfl, rfl, rfl, rfl, hs⟩ := hs
    cases c; cases q; cases u
    leaf
  · obtain ⟨rfl, g1, g2, rfl, g3, g4, g5⟩ := hs
    cases c; cases q; cases u
    leaf

/-- The rest of `fd_close` when the handlers are being cleared. -/
theorem closeSet_wait {s : St} {i n oe : Nat} {b : Bool} (h : Inv x0 s) (hi : s.iod = some i) (ho : oe ≠ 0)
    (hq : s.closeReq = false) (hs : s.st = .inOpenRetry ∨ s.st = .openErrWait)
    (g3 : n + b2n s.defPend = s.ref + 1) (g4 : s.defPend = true → b = s.runQ) (g5 : s.defPend = false → b = true) :
    Ok (closeSet { s with openErr := oe, dOpen := true, ref := n, runQ := b, defPend := true }) := by
  have c := h.core' hi
  have q := h.cnt
  have cl : closing s.ev = false := by
    rw [c.cls]
    cases e : s.closeDone.isSome with
    | false => rfl
    | true => have := (c.clr e).1; rw [hq] at this; cases this
  unfold closeSet startClose
  simp only [Option.bind_eq_bind]
  rw [if_neg (by simp [hi]), if_neg (by rcases hs with h6 | h6 <;> simp [h6])]
  simp only [Option.bind_some]
  refine ⟨_, rfl, h.frameC hi (Upd.refl _ _).toC rfl rfl rfl { h.hist.closeAcc cl with } ?_⟩
  have e1 : opening (Ev.closeAcc s.nClose :: s.ev) = opening s.ev := rfl
  have e2 : closing (Ev.closeAcc s.nClose :: s.ev) = true := rfl
  simp only [St.log, Nat.add_sub_cancel]
  generalize tot s.th = k at *
  clear h
  cases c; cases q
  leaf

/-- The rest of `fd_close` when the descriptor was closed and the runner has to report the failed open. -/
theorem closeSet_none {s : St} (h : Inv x0 s) (hi : s.iod = none)
    (hq : s.closeReq = false) (hs : s.st = .openErrWait) : Ok (closeSet s) := by
  have c := h.core
  have q := h.cnt
  have cl : closing s.ev = false := by
    rw [c.cls]
    cases e : s.closeDone.isSome with
    | false => rfl
    | true => have := (c.clr e).1; rw [hq] at this; cases this
  have pn := c.pNone (by simp [hi])
  have dp : s.dClose = true ∧ s.dOpen = true := by simpa [hs] using pn.2
  have dP := (c.dOp dp.2).1
  unfold closeSet startClose
  simp only [Option.bind_eq_bind]
  rw [if_pos (by simp [hi])]
  simp only [sched, dP, if_true, Option.bind_some]
  refine ⟨_, rfl, ?_⟩
  have e1 : opening (Ev.closeAcc s.nClose :: s.ev) = opening s.ev := rfl
  have e2 : closing (Ev.closeAcc s.nClose :: s.ev) = true := rfl
  simp only [St.log, Nat.add_sub_cancel]
  refine ⟨?_, h.lst, { h.desc with }, { h.hist.closeAcc cl with }⟩
  have ec : cur s = {} := cur_none hi
  rw [ec] at c
  rw [cur_none (by exact hi)]
  dsimp only
  generalize tot s.th = k at *
  clear h
  cases c; cases q
  leaf

theorem close_ok {s : St} (h : Inv x0 s) (hf : s.freed = false) : Ok (close s) := by
  have rp := h.refPos (.inr (.inl hf))
  have c := h.core
  unfold LlFd.close
  rw [lock_ok h rp]
  simp only [Option.bind_eq_bind, Option.bind_some]
  by_cases hq : s.closeReq = true
  · rw [if_pos hq]; exact ⟨s, rfl, h⟩
  rw [if_neg hq]
  have hq : s.closeReq = false := by simpa using hq
  have retry : s.st = .inOpen ∨ s.st = .inOpenRetry → Ok ((sched { s with openErr := geLocalClosed, dOpen := true }).bind closeSet) := by
    intro hs
    obtain ⟨n, b, e2, g1, g2, g3, g4⟩ := sched_ok { s with openErr := geLocalClosed, dOpen := true } rp
    dsimp only at e2 g1 g2 g3 g4 ⊢
    rw [e2, Option.bind_some]
    rcases hs with hs | hs
    · obtain ⟨i, hi, hr, hc⟩ := h.active (.inr (.inl hs))
      exact closeSet_active h hi hr hf hq (.inr ⟨rfl, by simp [geLocalClosed], hs, rfl, g1, g3, g4⟩)
    · cases hi : s.iod with
      | none => have := (c.pNone (by simp [hi])).2; simp [hs] at this
      | some i =>
        rw [← hi]
        exact closeSet_wait h hi (by simp [geLocalClosed]) hq (.inl hs) g1 g3 g4
  have eWait : s.st = .openErrWait → Ok ((sched { s with dOpen := true }).bind closeSet) := by
    intro hs
    obtain ⟨n, b, e2, g1, g2, g3, g4⟩ := sched_ok { s with dOpen := true } rp
    dsimp only at e2 g1 g2 g3 g4 ⊢
    rw [e2, Option.bind_some]
    have hi' : s.iod = none ∨ ∃ i, s.iod = some i := by cases s.iod <;> simp
    rcases hi' with hi | ⟨i, hi⟩
    · have pn := c.pNone (by simp [hi])
      have dp : s.dClose = true ∧ s.dOpen = true := by simpa [hs] using pn.2
      have dP := (c.dOp dp.2).1
      have hn : n = s.ref := by simp [dP] at g1; omega
      have hb : b = s.runQ := g3 dP
      rw [hn, hb]
      have e : ({ s with dOpen := true, defPend := true } : St) = s := by
        obtain ⟨⟩ := s; simp_all
      rw [e]
      exact closeSet_none h hi hq hs
    · exact closeSet_wait (oe := s.openErr) h hi (c.oerr (.inr hs)) hq (.inr hs) g1 g3 g4
  have act : s.st = .opened ∨ s.st = .errWait → Ok (closeSet s) := by
    intro hs
    obtain ⟨i, hi, hr, hc⟩ := h.active (by rcases hs with e | e <;> simp [e])
    refine closeSet_active h hi hr hf hq (.inl ⟨?_, rfl, rfl, rfl, rfl, hs⟩)
    cases e : s.dOpen with
    | false => rfl
    | true => have := (c.dOp e).2; rcases hs with hs | hs <;> simp [hs] at this
  have cld : s.st = .closed → Ok (some { s with closeReq := true }) := by
    intro hs
    refine ⟨_, rfl, h.frame rfl rfl rfl rfl rfl rfl rfl rfl rfl ?_⟩
    have q := h.cnt
    clear retry eWait act
    generalize tot s.th = k at *
    generalize cur s = d at *
    clear h
    cases c; cases q
    leaf
  cases hs : s.st with
  | closed => simpa only [hs] using cld hs
  | inClose =>
    rcases c.icl hs with e | e
    · rw [hq] at e; cases e
    · rw [hf] at e; cases e
  | opened => simpa only [hs] using act (.inl hs)
  | errWait => simpa only [hs] using act (.inr hs)
  | inOpen => simpa only [hs] using retry (.inl hs)
  | inOpenRetry => simpa only [hs] using retry (.inr hs)
  | openErrWait => simpa only [hs] using eWait hs

theorem free_ok {s : St} (h : Inv x0 s) (hf : s.freed = false) (ho : opening s.ev = false) : Ok (free s) := by
  have rp := h.refPos (.inr (.inl hf))
  have c := h.core
  have q := h.cnt
  unfold LlFd.free
  rw [lock_ok h rp]
  simp only [Option.bind_eq_bind, Option.bind_some]
  rw [if_neg (by simp [hf])]
  rw [c.op] at ho
  simp only [opn, Bool.or_eq_false_iff, decide_eq_false_iff_not] at ho
  have idle : s.st = .inClose ∨ s.st = .closed → Ok (derefUnlock { s with freed := true }) := by
    intro hs
    refine Inv.fin (r := 1) ?_ rfl
    refine h.frame rfl rfl rfl rfl rfl rfl rfl rfl rfl ?_
    generalize tot s.th = k at *
    generalize cur s = d at *
    clear h
    cases c; cases q
    leaf
  have act : s.st = .opened ∨ s.st = .errWait → Ok ((startClose { s with freed := true, closeDone := none }).bind derefUnlock) := by
    intro hs
    obtain ⟨i, hi, hr, hc⟩ := h.active (by rcases hs with e | e <;> simp [e])
    have cd : s.closeDone = none := by
      cases e : s.closeDone with
      | none => rfl
      | some m => have := (c.clr (by simp [e])).2.1; rcases hs with e | e <;> simp [e] at this
    have rp : 1 < s.ref := by
      have := c.refc
      simp only [X.add, hi, hf, Option.isSome_some, Bool.not_false, b2n_true] at this
      omega
    unfold startClose
    simp only [Option.bind_eq_bind]
    rw [if_neg (by simp [hi]), if_pos (by rcases hs with h6 | h6 <;> simp [h6])]
    obtain ⟨r', t, b', f, e, u, n1, n2, u2, b3⟩ := stopClear_ok (s := { s with freed := true, closeDone := none }) hi hc hr c.tmRun rp
    rw [e]
    simp only [Option.bind_some]
    refine Inv.fin (r := 1) ?_ rfl
    refine h.frameC hi u2 rfl rfl rfl (h.hist.frame rfl rfl rfl cd.symm rfl) ?_
    have c := h.core' hi
    generalize tot s.th = k at *
    clear h e
    cases c; cases q; cases u
    leaf
  cases hs : s.st with
  | closed => simpa only [hs] using idle (.inr hs)
  | inClose => simpa only [hs] using idle (.inl hs)
  | opened => simpa only [hs] using act (.inl hs)
  | errWait => simpa only [hs] using act (.inr hs)
  | inOpen => simp [hs] at ho
  | inOpenRetry => simp [hs] at ho
  | openErrWait => simp [hs] at ho

theorem Core.pseudo {k : X} {d : Iod} {s : St} (c : Core k d s) (h : s.st = .closed) (hi : s.iod.isSome = true) :
    closing s.ev = true := by
  rw [c.cls]
  have h2 := c.pAct hi; have h3 := c.pClr hi; have h4 := c.pSome hi; have h5 := c.pCld hi
  cases hr : d.reg <;> simp_all

theorem setRead_ok {c : Cfg} {s : St} {b : Bool} (h : Inv x0 s) (hf : s.freed = false)
    (ho : b = true → opening s.ev = false ∧ closing s.ev = false) : Ok (setRead c s b) := by
  have rp := h.refPos (.inr (.inl hf))
  have c0 := h.core
  have q := h.cnt
  have ps := c0.pseudo
  unfold setRead
  rw [lock_ok h rp]
  simp only [Option.bind_eq_bind, Option.bind_some]
  by_cases w : c.wrOnly = true
  · rw [if_pos w]; exact ⟨s, rfl, h⟩
  rw [if_neg w]
  by_cases o : (s.inRd || decide (s.st ≠ .opened) || (!s.buf.isEmpty && !b)) = true
  · rw [if_pos o]
    refine ⟨_, rfl, h.frame rfl rfl rfl rfl rfl rfl rfl rfl rfl ?_⟩
    simp only [Bool.or_eq_true, decide_eq_true_eq, Bool.and_eq_true, Bool.not_eq_true', List.isEmpty_eq_false_iff] at o
    generalize tot s.th = k at *
    generalize cur s = d at *
    clear h
    cases c0; cases q
    leaf
  · rw [if_neg o]
    simp only [Bool.or_eq_true, decide_eq_true_eq, Bool.and_eq_true, Bool.not_eq_true', List.isEmpty_eq_false_iff, not_or, not_and,
      ne_eq, Decidable.not_not, Bool.not_eq_true, Bool.not_eq_false] at o
    obtain ⟨⟨o1, o2⟩, o3⟩ := o
    by_cases bu : s.buf = []
    · rw [if_neg (by simp [bu])]
      obtain ⟨i, hi, hr, hc⟩ := h.active (.inl o2)
      obtain ⟨f, e, u, a1, a2⟩ := rdExI (s := { s with rdEn := b }) hi b (fun s => b || s.wrEn) hc
      dsimp only at e
      rw [e]
      refine ⟨_, rfl, h.frameU hi u rfl rfl rfl rfl rfl rfl rfl rfl ?_⟩
      have c0 := h.core' hi
      have ur := u.reg
      dsimp only at ur a1 a2
      generalize tot s.th = k at *
      clear h e
      cases c0; cases q
      leaf
    · rw [if_pos (by simpa using bu)]
      obtain rfl : b = true := o3 bu
      obtain ⟨n, b, e2, g1, g2, g3, g4⟩ := sched_ok { s with rdEn := true, dRead := true } rp
      dsimp only at e2 g1 g2 g3 g4 ⊢
      rw [e2]
      refine ⟨_, rfl, h.frame rfl rfl rfl rfl rfl rfl rfl rfl rfl ?_⟩
      generalize tot s.th = k at *
      generalize cur s = d at *
      clear h e2
      cases c0; cases q
      leaf

theorem setWrite_ok {c : Cfg} {s : St} {b : Bool} (h : Inv x0 s) (hf : s.freed = false)
    (ho : b = false → opening s.ev = false) : Ok (setWrite c s b) := by
  have rp := h.refPos (.inr (.inl hf))
  have c0 := h.core
  have q := h.cnt
  unfold setWrite
  rw [lock_ok h rp]
  simp only [Option.bind_eq_bind, Option.bind_some]
  by_cases w : c.rdOnly = true
  · rw [if_pos w]; exact ⟨s, rfl, h⟩
  rw [if_neg w]
  by_cases o : (decide (s.st = .opened) || decide (s.st = .inOpen) || decide (s.st = .inOpenRetry)) = true
  · rw [if_pos o]
    simp only [Bool.or_eq_true, decide_eq_true_eq] at o
    have his : s.iod.isSome = true := by
      cases hi : s.iod with
      | some i => rfl
      | none => have := (c0.pNone (by simp [hi])).2; rcases o with (o | o) | o <;> simp [o] at this
    obtain ⟨i, hi⟩ := Option.isSome_iff_exists.1 his
    obtain ⟨f, e, u, a1, a2⟩ := wrExI (s := { s with wrEn := b }) hi b (fun s => b || s.rdEn) (h.open_ hi)
    dsimp only at e
    rw [e]
    refine ⟨_, rfl, h.frameU hi u rfl rfl rfl rfl rfl rfl rfl rfl ?_⟩
    have ac := h.active
    have c0 := h.core' hi
    have ur := u.reg
    simp only [hi, Option.some.injEq, exists_eq_left'] at ac
    dsimp only at ur a1 a2
    generalize tot s.th = k at *
    clear h e
    cases c0; cases q
    leaf
  · rw [if_neg o, if_neg (by simp [c0.dEx])]
    simp only [Bool.or_eq_true, decide_eq_true_eq, not_or] at o
    refine ⟨_, rfl, h.frame rfl rfl rfl rfl rfl rfl rfl rfl rfl ?_⟩
    generalize tot s.th = k at *
    generalize cur s = d at *
    clear h
    cases c0; cases q
    leaf

end Gensio.LlFd
