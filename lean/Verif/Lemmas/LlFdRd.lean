import Verif.Lemmas.LlFdWr

/-! The read side of the descriptor layer keeps the invariants, see `Verif.Lemmas.LlFd`. -/

namespace Gensio.LlFd

set_option maxHeartbeats 1000000

/-- A thread in `fd_handle_incoming` with `in_read` set. -/
def xI : X := { ref := 1, rd := 1, rt := 1, nh := 1 }

theorem outDisable_ok {x : X} {s : St} {i : Nat} (h : Inv x s) (hi : s.iod = some i) (hx : x = { ref := 1, rt := 1, nh := 1 })
    (hr : s.st = .opened → s.rdEn = true → s.inRd = true) : Ok (outDisable s) := by
  subst hx
  have hc := h.open_ hi
  obtain ⟨f, e, u, a1, a2⟩ := rdExI hi false (fun s => s.wrEn) hc
  have e1 : outDisable s = LlFd.derefUnlock { s with iods := f } := by
    unfold outDisable
    have : (setRd s s.iod false).bind (fun s => (setEx s s.iod s.wrEn).bind derefUnlock) =
      ((setRd s s.iod false).bind (fun s => setEx s s.iod s.wrEn)).bind derefUnlock := by
      cases setRd s s.iod false <;> rfl
    simp only [Option.bind_eq_bind]
    exact this.trans (by rw [e]; rfl)
  rw [e1]
  refine Inv.fin (r := 1) ?_ rfl
  refine h.frameU hi u rfl rfl rfl rfl rfl rfl rfl rfl ?_
  have c := h.core' hi
  have q := h.cnt
  have ur := u.reg
  generalize tot s.th = k at *
  clear h
  cases c; cases q
  leaf

theorem readErr_ok {s : St} {i : Nat} (h : Inv xI s) (hi : s.iod = some i) :
    ∃ f st, readErr s = some { s with iods := f, st := st } ∧ Upd i f s.iods ∧ (f i).rd = (s.iods i).rd ∧
      (st = .errWait ∨ st = .inClose) ∧ (s.st = .inClose ↔ st = .inClose) ∧
      (s.st = .inClose ∨ s.st = .opened ∨ s.st = .errWait) := by
  have ht := h.core.rtT (by simp [X.add, xI]; omega)
  have hc := h.open_ hi
  have hst : s.st = .inClose ∨ s.st = .opened ∨ s.st = .errWait := by
    have := ht.1
    simp only [opn, Bool.or_eq_false_iff, decide_eq_false_iff_not] at this
    cases e : s.st <;> simp_all
  rcases hst with e | e | e
  · exact ⟨s.iods, .inClose, by simp [readErr, e]; rw [← e], Upd.refl _ _, rfl, by simp, by simp [e], by simp [e]⟩
  · obtain ⟨f, e1, u, a1, a2⟩ := wrExI hi false (fun _ => false) hc
    refine ⟨f, .errWait, ?_, u, a1, by simp, by simp [e], by simp [e]⟩
    have : readErr s = ((setWr s s.iod false).bind (fun s => setEx s s.iod false)).bind (fun s => some { s with st := .errWait }) := by
      simp only [readErr, e, Option.bind_eq_bind]
      cases setWr s s.iod false <;> rfl
    rw [this, e1]; rfl
  · exact ⟨s.iods, .errWait, by simp [readErr, e]; rw [← e], Upd.refl _ _, rfl, by simp, by simp [e], by simp [e]⟩

/-- The state after an error. -/
theorem readErr_inv {s : St} {i : Nat} {err : Nat} (h : Inv xI s) (hi : s.iod = some i) :
    ∃ s', (if err ≠ 0 then readErr s else some s) = some s' ∧ Inv xI s' ∧ s'.iod = some i ∧ s'.buf = s.buf ∧ s'.rdEn = s.rdEn := by
  by_cases e0 : err = 0
  · rw [if_neg (by simp [e0])]; exact ⟨s, rfl, h, hi, rfl, rfl⟩
  · rw [if_pos e0]
    obtain ⟨f, st, e1, u, a1, b1, b2, b3⟩ := readErr_ok h hi
    refine ⟨_, e1, ?_, hi, rfl, rfl⟩
    refine h.frameU hi u rfl rfl rfl rfl rfl rfl rfl rfl ?_
    have c := h.core' hi
    have q := h.cnt
    have ur := u.reg
    generalize tot s.th = k at *
    clear h
    simp only [xI] at *
    cases c; cases q
    leaf

theorem readEnd_ok {s : St} {i : Nat} {err : Nat} (h : Inv xI s) (hi : s.iod = some i) (hb : s.rdEn = true → s.buf = []) :
    Ok (readEnd s err) := by
  unfold readEnd
  obtain ⟨s1, e1, h1, hi1, b1, r1⟩ := readErr_inv (err := err) h hi
  simp only [Option.bind_eq_bind]
  rw [e1, Option.bind_some]
  have hb1 : s1.rdEn = true → s1.buf = [] := by rw [b1, r1]; exact hb
  clear h hi hb e1 b1 r1
  have k : Inv { ref := 1, rt := 1, nh := 1 } { s1 with inRd := false } ∨ (s1.st = .opened ∧ s1.rdEn = true) := by
    by_cases o : s1.st = .opened ∧ s1.rdEn = true
    · exact .inr o
    refine .inl ?_
    refine h1.frame rfl rfl rfl rfl rfl rfl rfl rfl rfl ?_
    have c := h1.core
    have q := h1.cnt
    generalize tot s1.th = k at *
    generalize cur s1 = d at *
    clear h1
    simp only [xI] at *
    cases c; cases q
    leaf
  by_cases o : s1.st = .opened ∧ s1.rdEn = true
  · have o' : (decide (s1.st = .opened) && s1.rdEn) = true := by simp [o.1, o.2]
    rw [if_pos o']
    have hc := h1.open_ hi1
    obtain ⟨f, e, u, a1, a2⟩ := rdExI (s := { s1 with inRd := false }) hi1 true (fun s => true) hc
    have e1 : (setRd { s1 with inRd := false } s1.iod true).bind (fun s => (setEx s s.iod true).bind derefUnlock) =
        LlFd.derefUnlock { s1 with inRd := false, iods := f } := by
      have : (setRd { s1 with inRd := false } s1.iod true).bind (fun s => (setEx s s.iod true).bind derefUnlock) =
        ((setRd { s1 with inRd := false } s1.iod true).bind (fun s => setEx s s.iod true)).bind derefUnlock := by
        cases setRd { s1 with inRd := false } s1.iod true <;> rfl
      exact this.trans (by rw [e]; rfl)
    rw [e1]
    refine Inv.fin (r := 1) ?_ rfl
    refine h1.frameU hi1 u rfl rfl rfl rfl rfl rfl rfl rfl ?_
    have c := h1.core' hi1
    have q := h1.cnt
    have ur := u.reg
    have ac := h1.active (.inl o.1)
    simp only [hi1, Option.some.injEq, exists_eq_left'] at ac
    have bu := hb1 o.2
    generalize tot s1.th = k at *
    clear h1
    simp only [xI] at *
    cases c; cases q
    leaf
  · have o' : ¬ (decide (s1.st = .opened) && s1.rdEn) = true := by simpa using o
    rw [if_neg o']
    rcases k with k | k
    · exact outDisable_ok k hi1 rfl (fun a b => absurd ⟨a, b⟩ o)
    · exact absurd k o

theorem rdCb_push {s : St} {i err : Nat} (h : Inv xI s) (hi : s.iod = some i) (he : err ≠ 0 → s.buf = []) :
    Ok (some ((s.log (.read err s.buf)).push (.rdCb err) (some i))) := by
  refine ⟨_, rfl, h.pushF (pc := .rdCb err) (hd := some i) rfl rfl rfl rfl ?_ (by simp [Th.ok]) (.inr hi.symm) ?_⟩
  · have ho : opening s.ev = false := by
      rw [h.core.op]
      exact (h.core.rtT (by simp [X.add, xI]; omega)).1
    exact { h.hist.read err s.buf ho he with }
  · have c := h.core
    have q := h.cnt
    have e1 : opening (Ev.read err s.buf :: s.ev) = opening s.ev := rfl
    have e2 : closing (Ev.read err s.buf :: s.ev) = closing s.ev := rfl
    generalize tot s.th = k at *
    generalize cur s = d at *
    simp only [St.push, St.log]
    clear h
    simp only [xI] at *
    cases c; cases q
    leaf

theorem deliver_ok {s : St} {i : Nat} {err : Nat} (h : Inv xI s) (hi : s.iod = some i) (he : err ≠ 0 → s.buf = []) :
    Ok (deliver s err (some i)) := by
  unfold deliver
  by_cases o : (decide (err ≠ 0) || !s.buf.isEmpty) = true
  · rw [if_pos o]; exact rdCb_push h hi he
  · rw [if_neg o]
    have : s.buf = [] := by simpa using (by simpa using o : err = 0 ∧ s.buf = []).2
    exact readEnd_ok h hi (fun _ => this)

theorem incoming_ok {s : St} {i : Nat} (h : Inv (xOf ⟨.rd0, some i⟩) s) (hi : s.iod = some i) : Ok (incoming s (some i)) := by
  unfold incoming
  rw [h.lockRef (by simp [hi])]
  simp only [Option.bind_eq_bind, Option.bind_some]
  obtain ⟨s1, e1, hs, h1⟩ := h.ref (h.refPos (by simp [hi]))
  rw [e1, Option.bind_some]
  have hi1 : s1.iod = some i := by rw [hs]; exact hi
  have h1 : Inv { ref := 1, rt := 1, nh := 1 } s1 := h1
  clear hs e1 h
  clear hi
  by_cases o : (s1.inRd || decide (s1.st = .errWait) || decide (s1.st = .openErrWait)) = true
  · rw [if_pos o]
    refine outDisable_ok h1 hi1 rfl (fun a _ => ?_)
    simpa [a] using o
  · rw [if_neg o]
    have o1 : s1.inRd = false := by
      cases hh : s1.inRd with
      | false => rfl
      | true => simp [hh] at o
    have k : Inv xI { s1 with inRd := true } ∧ (s1.buf = [] → Inv { xI with io := 1 } { s1 with inRd := true }) := by
      have c := h1.core
      have q := h1.cnt
      constructor
      · refine h1.frame rfl rfl rfl rfl rfl rfl rfl rfl rfl ?_
        generalize tot s1.th = k at *
        generalize cur s1 = d at *
        clear h1
        simp only [xI] at *
        cases c; cases q
        leaf
      · intro be
        refine h1.frame rfl rfl rfl rfl rfl rfl rfl rfl rfl ?_
        generalize tot s1.th = k at *
        generalize cur s1 = d at *
        clear h1
        simp only [xI] at *
        cases c; cases q
        leaf
    by_cases b : s1.buf = []
    · rw [if_pos (by simp [b])]
      refine ⟨_, rfl, ?_⟩
      exact Inv.put (k.2 b) (by simp [Th.ok]) (.inr hi1.symm)
    · rw [if_neg (by simpa using b)]
      exact deliver_ok k.1 hi1 (fun x => absurd rfl x)

theorem gotData_ok {s : St} {i : Nat} {a : Arg} (h : Inv (xOf ⟨.rdIO, some i⟩) s) (hi : s.iod = some i) :
    Ok (gotData s a (some i)) := by
  unfold gotData
  rw [h.lockRef (by simp [hi])]
  simp only [Option.bind_eq_bind, Option.bind_some]
  have c := h.core
  have q := h.cnt
  have bu : s.buf = [] := by
    refine c.ioB ?_
    simp [X.add, xOf, Pc.io]; omega
  by_cases e0 : a.err = 0
  · rw [if_neg (by simp [e0])]
    refine deliver_ok ?_ hi (fun x => absurd rfl x)
    refine h.frame rfl rfl rfl rfl rfl rfl rfl rfl rfl ?_
    have da := c.data
    have da' : s.recvd ++ a.data = s.taken ++ a.data := by rw [da, bu]; simp
    generalize tot s.th = k at *
    generalize cur s = d at *
    clear h
    simp only [xI] at *
    cases c; cases q
    leaf
  · rw [if_pos e0]
    refine deliver_ok ?_ hi (fun _ => bu)
    refine h.frame rfl rfl rfl rfl rfl rfl rfl rfl rfl ?_
    generalize tot s.th = k at *
    generalize cur s = d at *
    clear h
    simp only [xI] at *
    cases c; cases q
    leaf

/-- Taking bytes. -/
theorem took_ok (s : St) (err cnt : Nat) :
    ∃ b t g, took s err cnt = ({ s with buf := b, taken := t }, g) ∧ t ++ b = s.taken ++ s.buf ∧ (s.buf = [] → b = []) ∧
      (g = false → s.rdEn = true → b = []) ∧ (g = true → err = 0) := by
  unfold took
  split
  · exact ⟨_, _, _, rfl, by simp, fun _ => rfl, fun _ _ => rfl, fun x => by cases x⟩
  · rename_i hn
    refine ⟨_, _, _, rfl, by simp [List.append_assoc], fun h => by simp [h], fun a b => ?_, fun _ => ?_⟩
    · rw [b] at a; cases a
    · simp only [ne_eq, Bool.or_eq_true, decide_eq_true_eq, not_or, Decidable.not_not] at hn; exact hn.1

theorem readRet_ok {s : St} {i err cnt : Nat} (h : Inv (xOf ⟨.rdCb err, some i⟩) s) (hi : s.iod = some i) :
    Ok (readRet s err cnt (some i)) := by
  unfold readRet
  rw [h.lockRef (by simp [hi])]
  simp only [Option.bind_eq_bind, Option.bind_some]
  obtain ⟨b, t, g, e, h1, h2, h3, h4⟩ := took_ok s err cnt
  rw [e]
  have k : Inv xI { s with buf := b, taken := t } := by
    refine h.frame rfl rfl rfl rfl rfl rfl rfl rfl rfl ?_
    have c := h.core
    have q := h.cnt
    have da := c.data
    rw [← h1] at da
    generalize tot s.th = k at *
    generalize cur s = d at *
    clear h
    simp only [xI] at *
    cases c; cases q
    leaf
  cases g with
  | true => exact rdCb_push k hi (fun x => absurd (h4 rfl) x)
  | false => exact readEnd_ok k hi (fun r => h3 rfl r)

theorem dfRet_ok {s : St} {cnt : Nat} (h : Inv (xOf ⟨.dfRd, none⟩) s) : Ok (dfRet s cnt) := by
  have h1 := h.core.run; have h2 := h.core.late
  simp [X.add, xOf, Pc.run, Pc.late] at h1 h2
  have dp : s.defPend = true := by
    cases hdp : s.defPend with
    | true => rfl
    | false => simp [hdp] at h1
  have h2 := h2 (by omega)
  unfold dfRet
  rw [h.lockRef (by simp [dp])]
  simp only [Option.bind_eq_bind, Option.bind_some]
  obtain ⟨b, t, g, e, a1, a2, a3, _⟩ := took_ok s 0 cnt
  rw [e]
  have c := h.core
  have q := h.cnt
  have da := c.data
  rw [← a1] at da
  cases g with
  | true =>
    refine ⟨_, rfl, h.pushF (pc := .dfRd) (hd := none) rfl rfl rfl rfl ?_ rfl (.inl rfl) ?_⟩
    · have ho : opening s.ev = false := by
        rw [c.op]; exact (c.dfT (by simp [X.add, xOf, Pc.df]; omega)).1
      exact { h.hist.read 0 b ho (fun x => absurd rfl x) with }
    · have e1 : opening (Ev.read 0 b :: s.ev) = opening s.ev := rfl
      have e2 : closing (Ev.read 0 b :: s.ev) = closing s.ev := rfl
      generalize tot s.th = k at *
      generalize cur s = d at *
      simp only [St.push, St.log]
      clear h
      cases c; cases q
      leaf
  | false =>
    refine runC_ok (o := 0) ?_ h2.1
    refine h.frame rfl rfl rfl rfl rfl rfl rfl rfl rfl ?_
    generalize tot s.th = k at *
    generalize cur s = d at *
    clear h
    simp only [xR] at *
    cases c; cases q
    leaf

theorem exInternal_ok {c : Cfg} {s : St} {a : Arg} {i : Nat} (h : Inv { nh := 1 } s) (hi : s.iod = some i)
    (e : s.rdEn = true ∨ s.wrEn = true) (ho : s.st ≠ .inOpen) : Ok (exInternal c s a i (some i)) := by
  unfold exInternal
  by_cases r : s.rdEn = true
  · rw [if_pos r]
    refine ⟨_, rfl, ?_⟩
    refine Inv.put ?_ (by simp [Th.ok]) (.inr hi.symm)
    refine h.frame rfl rfl rfl rfl rfl rfl rfl rfl rfl ?_
    have c := h.core
    have q := h.cnt
    generalize tot s.th = k at *
    generalize cur s = d at *
    clear h
    cases c; cases q
    leaf
  · rw [if_neg r]
    have w : s.wrEn = true := by rcases e with e | e; exact absurd e r; exact e
    rw [if_pos w]
    exact writeReady_ok (r := 0) (hd := some i) h hi (.inl rfl) (.inr ⟨rfl, rfl, ho⟩)

theorem except_ok {c : Cfg} {s : St} {a : Arg} {i : Nat} (h : Inv { nh := 1 } s) (hi : s.iod = some i)
    (e : s.rdEn = true ∨ s.wrEn = true ∨ s.st = .inOpen ∨ s.st = .inOpenRetry) : Ok (except c s a i (some i)) := by
  unfold LlFd.except
  rw [h.lockRef (by simp [hi])]
  simp only [Option.bind_eq_bind, Option.bind_some]
  by_cases o : (decide (s.st = .inOpen) || decide (s.st = .inOpenRetry)) = true
  · rw [if_pos o]
    obtain ⟨s1, e1, hs, h1⟩ := h.ref (h.refPos (by simp [hi]))
    rw [e1, Option.bind_some]
    have hi1 : s1.iod = some i := by rw [hs]; exact hi
    exact writeReady_ok (r := 1) (hd := some i) h1 hi1 (.inl rfl) (.inl ⟨rfl, rfl⟩)
  · rw [if_neg o]
    simp only [Bool.or_eq_true, decide_eq_true_eq, not_or] at o
    by_cases x : c.exOp = true
    · rw [if_pos x]
      refine ⟨_, rfl, ?_⟩
      refine Inv.put ?_ (by simp [Th.ok]) (.inr hi.symm)
      refine h.frame rfl rfl rfl rfl rfl rfl rfl rfl rfl ?_
      have c := h.core
      have q := h.cnt
      generalize tot s.th = k at *
      generalize cur s = d at *
      clear h
      cases c; cases q
      leaf
    · rw [if_neg x]
      refine exInternal_ok h hi ?_ o.1
      rcases e with e | e | e | e
      · exact .inl e
      · exact .inr e
      · exact absurd e o.1
      · exact absurd e o.2

theorem exRet_ok {c : Cfg} {s : St} {a : Arg} {i : Nat} (h : Inv (xOf ⟨.exOp, some i⟩) s) (hi : s.iod = some i)
    (e : s.rdEn = true ∨ s.wrEn = true ∨ s.st = .inOpen ∨ s.st = .inOpenRetry)
    (oo : a.oob = true → opening s.ev = false ∧ s.st ≠ .closed) : Ok (exRet c s a i (some i)) := by
  unfold exRet
  have xo := h.core.xoT (by simp [X.add, xOf, Pc.xo]; omega)
  by_cases o : a.oob = true
  · rw [if_pos o]
    have oo := oo o
    refine ⟨_, rfl, ?_⟩
    refine Inv.put ?_ (by simp [Th.ok]) (.inr hi.symm)
    refine h.frame rfl rfl rfl rfl rfl rfl rfl rfl rfl ?_
    have c := h.core
    have q := h.cnt
    generalize tot s.th = k at *
    generalize cur s = d at *
    clear h
    cases c; cases q
    leaf
  · rw [if_neg o, h.lockRef (by simp [hi])]
    simp only [Option.bind_eq_bind, Option.bind_some]
    refine exInternal_ok ?_ hi ?_ xo.1
    · refine h.frame rfl rfl rfl rfl rfl rfl rfl rfl rfl ?_
      have c := h.core
      have q := h.cnt
      generalize tot s.th = k at *
      generalize cur s = d at *
      clear h
      cases c; cases q
      leaf
    · rcases e with e | e | e | e
      · exact .inl e
      · exact .inr e
      · exact absurd e xo.1
      · exact absurd e xo.2

end Gensio.LlFd
