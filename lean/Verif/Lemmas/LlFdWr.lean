import Verif.Lemmas.LlFdStep

/-! The write side of the descriptor layer keeps the invariants, see `Verif.Lemmas.LlFd`. -/

namespace Gensio.LlFd

set_option maxHeartbeats 1000000

theorem Inv.notClosing {x : X} {s : St} (h : Inv x s) (e : s.st = .inOpen ∨ s.st = .opened) : closing s.ev = false := by
  rw [h.core.cls]
  cases ee : s.closeDone.isSome with
  | false => rfl
  | true => have := (h.core.clr ee).2.1; rcases e with e | e <;> simp [e] at this

theorem wrOff_ok {s : St} {i : Nat} (hi : (s.iods i).isClosed = false) :
    ∃ f, wrOff s (some i) = some { s with iods := f } ∧ Upd i f s.iods ∧ (f i).rd = (s.iods i).rd ∧
      (f i).wr = if (s.iods i).reg = .active then false else (s.iods i).wr := by
  obtain ⟨f, e, u, a1, a2⟩ := setWr_ok (s := s) false hi
  obtain ⟨g, e', u', a1', a2'⟩ := setEx_ok (s := { s with iods := f }) (i := i) s.rdEn (by rw [u.cl]; exact hi)
  refine ⟨g, ?_, u'.trans u, a1'.trans a1, a2'.trans a2⟩
  simp only [wrOff, e, Option.bind_eq_bind, Option.bind_some]
  exact e'

theorem clear_ok {s : St} {i : Nat} (hi : s.iod = some i) (hc : (s.iods i).isClosed = false) (hr : (s.iods i).reg = .active) :
    ∃ f, clear s = some { s with iods := f } ∧ UpdC i f s.iods ∧ (f i).reg = .clearing := by
  have e : clear s = some (s.setIod i { reg := .clearing }) := by
    unfold clear
    simp only [hi]
    rw [if_neg (by simp [hc]), if_pos hr]
  exact ⟨fun j => if j = i then { reg := .clearing } else s.iods j, e, ⟨fun j hj => if_neg hj, by simp [hc]⟩, by simp⟩

/-- `fd_stop_timer` and clearing the handlers. -/
theorem stopClear_ok {s : St} {i : Nat} (hi : s.iod = some i) (hc : (s.iods i).isClosed = false) (hr : (s.iods i).reg = .active)
    (h : s.tmRun = true → s.tm = .running) (r : 1 < s.ref) :
    ∃ r t b f, (stopTimer s).bind clear = some { s with ref := r, tm := t, tmRun := b, iods := f } ∧ TmUpd s r t b ∧
      t ≠ .running ∧ t ≠ .restart ∧ UpdC i f s.iods ∧ (f i).reg = .clearing := by
  have key : ∃ r t b, stopTimer s = some { s with ref := r, tm := t, tmRun := b } ∧ TmUpd s r t b ∧ t ≠ .running ∧ t ≠ .restart := by
    unfold stopTimer
    split
    · rename_i e; exact ⟨_, _, _, rfl, by constructor <;> simp_all, by simp [e], by simp [e]⟩
    · rename_i e
      split
      · rename_i e'
        refine ⟨s.ref - 1, .stopped, false, ?_, by constructor <;> simp [b2n, *]; omega, by simp, by simp⟩
        simp [deref, r]
      · rename_i e'; exact ⟨s.ref, .stopping, s.tmRun, rfl, by constructor <;> simp_all, by simp, by simp⟩
    · rename_i e; exact ⟨_, _, _, rfl, by constructor <;> simp_all, by simp [e], by simp [e]⟩
    · rename_i e
      refine ⟨s.ref, .stopping, s.tmRun, rfl, ?_, by simp, by simp⟩
      have : s.tmRun = false := by cases h' : s.tmRun with | false => rfl | true => simp [h h'] at e
      constructor <;> simp_all
  obtain ⟨r', t, b, e1, u, n1, n2⟩ := key
  obtain ⟨f, e2, u2, r2⟩ := clear_ok (s := { s with ref := r', tm := t, tmRun := b }) hi hc hr
  rw [e1, Option.bind_some]
  exact ⟨r', t, b, f, e2, u, n1, n2, u2, r2⟩

theorem openFailed_ok {c : Cfg} {s : St} {f : Nat → Iod} {hd : Option Nat} {i e : Nat}
    (h : Inv { ref := 1, nh := b2n hd.isSome } s) (hi : s.iod = some i) (o : s.st = .inOpen) (hr : (s.iods i).reg = .active)
    (u1 : Upd i f s.iods) (e0 : e ≠ 0) (rp : 1 < s.ref) :
    ∃ s', openFailed c { s with iods := f } e = some s' ∧ Inv { ref := 1 } s' := by
  unfold openFailed
  split
  · rename_i hn
    obtain ⟨r', t, b, g, e2, u2, n1, n2, u3, b3⟩ := stopClear_ok (s := { s with iods := f, st := .inOpenRetry }) hi
      (by show (f i).isClosed = false; rw [u1.cl]; exact h.open_ hi) (by show (f i).reg = _; rw [u1.reg]; exact hr) h.core.tmRun rp
    simp only [Option.bind_eq_bind] at e2 ⊢
    rw [e2]
    refine ⟨_, rfl, ?_⟩
    refine h.frameC hi (u3.trans u1.toC) rfl rfl rfl (h.hist.frame rfl rfl rfl rfl rfl) ?_
    have c := h.core' hi
    have q := h.cnt
    have ur := u1.reg
    generalize tot s.th = k at *
    clear h
    cases c; cases q; cases u2
    leaf
  · rename_i hn
    obtain ⟨r', t, b, g, e2, u2, n1, n2, u3, b3⟩ := stopClear_ok (s := { s with iods := f, openErr := e, st := .openErrWait }) hi
      (by show (f i).isClosed = false; rw [u1.cl]; exact h.open_ hi) (by show (f i).reg = _; rw [u1.reg]; exact hr) h.core.tmRun rp
    simp only [Option.bind_eq_bind] at e2 ⊢
    rw [e2]
    refine ⟨_, rfl, ?_⟩
    refine h.frameC hi (u3.trans u1.toC) rfl rfl rfl (h.hist.frame rfl rfl rfl rfl rfl) ?_
    have c := h.core' hi
    have q := h.cnt
    have ur := u1.reg
    generalize tot s.th = k at *
    clear h
    cases c; cases q; cases u2
    leaf

theorem writeReady_ok {c : Cfg} {s : St} {a : Arg} {i r : Nat} {k : Ret} {hd : Option Nat}
    (h : Inv { ref := r, nh := b2n hd.isSome } s) (hi : s.iod = some i) (hh : hd = some i ∨ (hd = none ∧ s.st = .inOpen))
    (kk : (k = .fin ∧ r = 1) ∨ (k = .plain ∧ r = 0 ∧ s.st ≠ .inOpen)) : Ok (writeReady c s (some i) a k hd) := by
  have hc := h.open_ hi
  have hd' : hd = none ∨ hd = s.iod := by rw [hi]; rcases hh with e | ⟨e, _⟩ <;> simp [e]
  unfold writeReady handleWrite
  by_cases o : s.st = .inOpen
  · obtain ⟨rfl, rfl⟩ : k = .fin ∧ r = 1 := by
      rcases kk with kk | kk
      · exact kk
      · exact absurd o kk.2.2
    obtain ⟨i', hi', hr, -⟩ := h.active (Or.inr (Or.inl o))
    have : i' = i := by rw [hi] at hi'; simpa using hi'.symm
    subst this
    have rp : 1 < s.ref := by
      have := h.core.refc
      simp only [X.add, hi, Option.isSome_some, b2n_true] at this; omega
    rw [if_pos o]
    cases a.co with
    | retry =>
      obtain ⟨r', t, b, e, u, nz⟩ := startTimer_ok h.core.tmRun (by omega)
      simp only [e, Option.map_some, cont]
      refine Inv.fin (r := 1) ?_ rfl
      refine h.frame rfl rfl rfl rfl rfl rfl rfl rfl rfl ?_
      have c := h.core
      have q := h.cnt
      generalize tot s.th = k at *
      generalize cur s = d at *
      clear h
      cases c; cases q; cases u
      leaf
    | res e =>
      obtain ⟨f, e1, u1, a1, b1⟩ := wrOff_ok hc
      simp only [e1, Option.bind_eq_bind, Option.bind_some]
      by_cases e0 : e = 0
      · subst e0
        have op : opening s.ev = true := by rw [h.core.op]; simp [opn, o]
        have hm := (h.hist.num op).1
        simp only [ne_eq, not_true_eq_false, if_false, finishOpen, hm, Option.map_some]
        refine ⟨_, rfl, h.pushC (pc := .opCb 0 .fin) (hd := hd) hi u1.toC rfl rfl rfl ?_ (Or.inl rfl) hd' ?_⟩
        · exact { h.hist.openDone op hm 0 (fun _ => h.notClosing (.inl o)) with }
        · have c := h.core' hi
          have q := h.cnt
          have e1 : opening (Ev.openDone (s.nOpen - 1) 0 :: s.ev) = false := rfl
          have e2 : closing (Ev.openDone (s.nOpen - 1) 0 :: s.ev) = closing s.ev := rfl
          have ur := u1.reg
          generalize tot s.th = k at *
          simp only [St.push, St.log]
          clear h
          cases c; cases q
          leaf
      · rw [if_pos e0]
        obtain ⟨s', e2, k'⟩ := openFailed_ok (c := c) h hi o hr u1 e0 rp
        simp only [e2, Option.map_some, cont]
        exact k'.fin rfl
  · rw [if_neg o]
    obtain rfl : hd = some i := by 
      rcases hh with e | ⟨_, e⟩
      · exact e
      · exact absurd e o
    by_cases hw : (decide (s.st = .opened) && s.wrEn && !s.inWr) = true
    · rw [if_pos hw]
      simp only [Bool.and_eq_true, decide_eq_true_eq, Bool.not_eq_true'] at hw
      refine ⟨_, rfl, h.pushF (pc := .wrCb i k) (hd := some i) rfl rfl rfl rfl ?_ ?_ hd' ?_⟩
      · exact { h.hist.write (by
          rw [h.core.op]; have dd := h.core.dOp
          cases ee : s.dOpen with
          | false => simp [opn, hw.1.1]
          | true => have := (dd ee).2; simp [hw.1.1] at this) (h.notClosing (.inr hw.1.1)) with }
      · exact ⟨rfl, by rcases kk with kk | kk <;> simp [kk.1]⟩
      · have c := h.core
        have q := h.cnt
        have e1 : opening (Ev.write :: s.ev) = opening s.ev := rfl
        have e2 : closing (Ev.write :: s.ev) = closing s.ev := rfl
        generalize tot s.th = k at *
        generalize cur s = d at *
        simp only [St.push, St.log]
        clear h
        rcases kk with ⟨rfl, rfl⟩ | ⟨rfl, rfl, -⟩
        · cases c; cases q
          leaf
        · cases c; cases q
          leaf
    · rw [if_neg hw]
      simp only [Bool.and_eq_true, decide_eq_true_eq, Bool.not_eq_true'] at hw
      obtain ⟨f, e1, u1, a1, b1⟩ := wrOff_ok hc
      simp only [e1, Option.map_some]
      have key : Inv { ref := r } { s with iods := f } := by
        refine h.frameU hi u1 rfl rfl rfl rfl rfl rfl rfl rfl ?_
        have c := h.core' hi
        have q := h.cnt
        have ur := u1.reg
        generalize tot s.th = k at *
        clear h
        cases c; cases q
        leaf
      rcases kk with ⟨rfl, rfl⟩ | ⟨rfl, rfl, -⟩
      · exact key.fin rfl
      · exact ⟨_, rfl, key⟩

theorem writeRet_ok {c : Cfg} {s : St} {a : Arg} {i : Nat} {k : Ret}
    (h : Inv (xOf ⟨.wrCb i k, some i⟩) s) (hi : s.iod = some i) (kk : k = .fin ∨ k = .plain) : Ok (writeRet c s i a k) := by
  have hc := h.open_ hi
  unfold writeRet
  rw [h.lockRef (by simp [hi])]
  simp only [Option.bind_eq_bind, Option.bind_some]
  have key : ∃ s', wrAgain { s with inWr := false } i = some s' ∧ Inv { ref := if k = .fin then 1 else 0 } s' := by
    unfold wrAgain
    split
    · rename_i hw
      obtain ⟨f, e1, u1, a1, b1⟩ := wrExI (s := { s with inWr := false }) hi true (fun _ => true) hc
      refine ⟨{ s with inWr := false, iods := f }, e1, ?_⟩
      · refine h.frameU hi u1 rfl rfl rfl rfl rfl rfl rfl rfl ?_
        have c := h.core' hi
        have q := h.cnt
        have ur := u1.reg
        generalize tot s.th = k at *
        clear h
        rcases kk with rfl | rfl
        · cases c; cases q
          leaf
        · cases c; cases q
          leaf
    · rename_i hw
      obtain ⟨f, e1, u1, a1, b1⟩ := wrOff_ok (s := { s with inWr := false }) hc
      refine ⟨_, e1, ?_⟩
      refine h.frameU hi u1 rfl rfl rfl rfl rfl rfl rfl rfl ?_
      have c := h.core' hi
      have q := h.cnt
      have ur := u1.reg
      generalize tot s.th = k at *
      clear h
      rcases kk with rfl | rfl
      · cases c; cases q
        leaf
      · cases c; cases q
        leaf
  obtain ⟨s', e, k'⟩ := key
  rw [e, Option.bind_some]
  rcases kk with rfl | rfl
  · exact k'.fin rfl
  · exact ⟨_, rfl, k'⟩

end Gensio.LlFd
