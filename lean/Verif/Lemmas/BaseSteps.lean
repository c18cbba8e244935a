import Verif.Lemmas.Base

/-!
# The steps of the base gensio keep the invariant
-/

namespace Gensio.Base

theorem dWriteAgain_ok {a : Ans} (hcl : a.clOk = true) (k : Nat) {s : St} (h : J { ref := 1, run := 1, k7 := 1 } s)
    (hx : s.inXmit = false) : Ok (dWriteAgain a k s) Inv := by
  unfold dWriteAgain
  have hst := h.c.cl
  have hst : s.st ≠ .closed := fun e => by simp at hst; exact hst.1 e
  split
  · have h1 : J { ref := 1, xmD := 1 } { s with dWrite := false, inXmit := true } := by
      have := h.c.xm
      jgo h
    dsimp only
    split
    · refine park_ok ⟨{ h1.t with }, { h1.c with }, h1.hi.write hst rfl⟩
    · refine dCloseStep_ok hcl _ ?_
      jgo h
  · exact dCloseStep_ok hcl _ h

theorem dWriteLoop_ok {a : Ans} (hcl : a.clOk = true) (k : Nat) {s : St} (h : J { ref := 1, xmD := 1, k7 := 1 } s) :
    Ok (dWriteLoop a k s) Inv := by
  unfold dWriteLoop
  have hst := h.c.cl
  have hst : s.st ≠ .closed := fun e => by simp at hst; exact hst.1 e
  split
  · have h1 : J { ref := 1, xmD := 1 } s := by jgo h
    exact park_ok ⟨{ h1.t with }, { h1.c with }, h1.hi.write hst rfl⟩
  · have := h.c.xm
    have h8 : cnt X.xmD s.th + cnt X.xmL s.th = 0 := by
      cases e : s.inXmit <;> simp [e] at this <;> omega
    refine dWriteAgain_ok hcl _ ?_ rfl
    jgo h

theorem dWriteTop_ok {a : Ans} (hcl : a.clOk = true) (k : Nat) {s : St} (h : J { ref := 1, run := 1, k7 := 1 } s) :
    Ok (dWriteTop a k s) Inv := by
  unfold dWriteTop
  split
  · dsimp only
    split
    · refine dCloseStep_ok hcl _ ?_
      jgo h
    · refine dWriteLoop_ok hcl _ ?_
      have := h.c.xm
      jgo h
  · exact dCloseStep_ok hcl _ h

theorem dReadIter_ok {a : Ans} (k : Nat) {s : St} (h : J { ref := 1, rdD := 1, k7 := 1 } s) : Ok (dReadIter a k s) Inv := by
  unfold dReadIter
  have hst := h.c.cl
  have hst : s.st ≠ .closed := fun e => by simp at hst; exact hst.1 e
  have h1 : J { ref := 1, rdD := 1 } s := by jgo h
  split
  · exact park_ok ⟨{ h1.t with }, { h1.c with }, { h1.hi.read hst rfl with }⟩
  · exact park_ok h1.j0

theorem dReadTop_ok {a : Ans} (hcl : a.clOk = true) (k : Nat) {s : St} (h : J { ref := 1, run := 1, k7 := 1 } s) :
    Ok (dReadTop a k s) Inv := by
  unfold dReadTop
  split
  · split
    · exact dWriteTop_ok hcl _ h
    · rename_i e
      simp only [Bool.or_eq_true, not_or, Bool.not_eq_true] at e
      have e1 := e.1
      refine dReadIter_ok _ ?_
      have := h.c.rd
      jgo h
  · exact dWriteTop_ok hcl _ h

theorem dReadRet_ok {a : Ans} (hcl : a.clOk = true) (err : Nat) {s : St} (h : J { ref := 1, rdD := 1, k7 := 1 } s) :
    Ok (dReadRet a err s) Inv := by
  have hback : ∀ s : St, J { ref := 1, rdD := 1, k7 := 1 } s →
      J { ref := 1, run := 1, k7 := 1 } { s with inRead := false } := by
    intro s h
    have := h.c.rd
    have h8 : cnt X.rdD s.th + cnt X.rdL s.th = 0 := by
      cases e : s.inRead <;> simp [e] at this <;> omega
    jgo h
  unfold dReadRet
  split
  · rename_i he
    have hst := h.c.cl
    refine (handleIoerr_ok 0 h hcl he (fun _ => ?_)).bind (fun s1 h1 => ?_)
    · simp at hst
      exact hst
    · exact dReadTop_ok hcl _ (hback _ h1.1)
  · split
    · exact dReadIter_ok _ h
    · exact dReadTop_ok hcl _ (hback _ h)

theorem dWriteRet_ok {a : Ans} (hcl : a.clOk = true) (err : Nat) {s : St} (h : J { ref := 1, xmD := 1, k7 := 1 } s) :
    Ok (dWriteRet a err s) Inv := by
  unfold dWriteRet
  split
  · rename_i he
    have hst := h.c.cl
    refine (handleIoerr_ok 0 h hcl he (fun _ => ?_)).bind (fun s1 h1 => ?_)
    · simp at hst
      exact hst
    · have h1 := h1.1
      have := h1.c.xm
      have h8 : cnt X.xmD s1.th + cnt X.xmL s1.th = 0 := by
        cases e : s1.inXmit <;> simp [e] at this <;> omega
      refine dWriteAgain_ok hcl _ ?_ rfl
      jgo h1
  · exact dWriteLoop_ok hcl _ h

theorem handler_ok {a : Ans} {p q : Pc} {s : St} (h : J0 (wt p) s) (hq : wt q = wt p) (hst : s.st ≠ .closed) :
    Ok (handler a p q s) Inv := by
  have ho : (wt p).owe = 0 := by cases p <;> rfl
  unfold handler
  split
  · exact park_ok ⟨{ h.t with }, { h.c with }, { h.hi.read hst ho with }⟩
  · exact park_ok (hq ▸ h)

/-! ## The open callback -/

theorem finishOpen_ok {w : X} {s : St} (err : Nat) (h : T w s) (ho : s.openDone.isSome = true)
    (hs : err = 0 → s.st = .opn) :
    Ok (finishOpen err s) (fun s' => T w s' ∧ ∃ i r l t, s.openDone = some i ∧
      s' = { s with ref := r, leak := l, tm := t, openDone := none, tr := .openCb i err :: s.tr }) := by
  obtain ⟨i, hi⟩ := Option.isSome_iff_exists.1 ho
  unfold finishOpen
  have : Ok (finishOpenSt err s) (fun s' => T w s' ∧ ∃ r l t, s' = { s with ref := r, leak := l, tm := t }) := by
    unfold finishOpenSt
    split
    · rename_i e
      have e := hs e
      rw [if_pos (by simp [e])]
      have e2 : ({ s with st := .opn } : St) = s := by
        obtain ⟨_⟩ := s
        simp only at e
        subst e
        rfl
      rw [e2]
      refine Ok.doIf ⟨h, _, _, _, rfl⟩ (fun _ => ?_)
      unfold startTimer
      split
      · exact ⟨_, rfl, h, _, _, _, rfl⟩
      · rename_i t e
        obtain ⟨h1, h2⟩ := h.tm.start e
        have hp := h.pos
        rw [ref, if_neg (by simp; omega)]
        refine ⟨_, rfl, { live := h.live, pos := by simp, eq := ?_, tm := h1, dtm := h.dtm }, _, _, _, rfl⟩
        have := h.eq
        simp only [h2]
        cases s.tm.stopped <;> simp <;> omega
    · exact ⟨_, rfl, h, _, _, _, rfl⟩
  refine this.bind (fun s1 h1 => ?_)
  obtain ⟨t1, r, l, t, rfl⟩ := h1
  simp only [hi]
  exact ⟨_, rfl, { t1 with }, i, _, _, _, rfl, rfl⟩

/-- The history after the open callback. -/
theorem H.openCb {w : X} {s : St} {i err : Nat} (h : H w s) (ho : s.openDone = some i) (hst : s.st ≠ .closed) (hw : w.owe = 0) :
    H w { s with openDone := none, tr := .openCb i err :: s.tr } := by
  have h1 := h.od hst i ho
  simp [hw] at h1
  have h3 : lastClosed s.tr = false := by
    cases e : lastClosed s.tr
    · rfl
    · rcases h.lc e with h | h
      · exact absurd h hst
      · omega
  exact { h with
    below := fun e he => by
      rcases List.mem_cons.1 he with rfl | he
      · exact h.bo i ho
      · exact h.below e he
    bo := by simp
    og := ⟨h1.1, h1.2, fun j hj => by have := (h.po j hj).1; rw [ho] at this; cases this; rfl, h.og⟩
    cg := h.cg
    q := ⟨h3, h.q⟩
    od := by simp
    owe := by simp [hw]
    cd := fun e j hj => by simpa using h.cd e j hj
    po := by simp [pendOpen] }

theorem deferred_ok {a : Ans} (hcl : a.clOk = true) {s : St} (h : T {} s) (hc : C {} s) (hi : H {} s) (hd : s.dPend = true)
    (hk : s.dClose = true → cnt X.dop s.th = 0) : Ok (deferred a s) Inv := by
  have he := h.eq
  have hp := h.pos
  simp only [hd, b_true] at he
  have t0 : ∀ w : X, w.ref = 1 → w.opn = 0 → w.owe = 0 → w.tT = 0 → w.dT = 0 → T w { s with dPend := false, dOpen := false } := by
    intro w h1 h2 h3 h4 h5
    refine ⟨h.live, h.pos, ?_, by rw [h4]; exact h.tm, by rw [h5]; exact h.dtm⟩
    simp only [h1, h2, h3, b_false]
    omega
  have hst : s.st ≠ .closed ∧ s.st ≠ .inLlOpen := by
    have := hc.cl
    simp [hd] at this
    exact this
  unfold deferred
  dsimp only
  split
  · rename_i e
    have hdo := hc.dop e
    refine (finishOpen_ok (w := { ref := 1, dop := 1 }) s.openErr (t0 _ rfl rfl rfl rfl rfl) hdo.1 (fun e => ?_)).bind
      (fun s1 h1 => ?_)
    · show s.st = .opn
      have h2 := hc.err2
      have h4 := hc.err4
      cases e3 : s.st <;> simp [e3, e] at h2 h4 hst hdo ⊢
    · obtain ⟨t1, i, r, l, t, ei, rfl⟩ := h1
      refine park_ok ⟨{ t1 with }, ?_, ?_⟩
      · unfold wt
        dsimp only at ei
        cgo hc
      · exact { hi.openCb (err := s.openErr) ei hst.1 rfl with
          po := by simp [pendOpen]
          owe := by simp [wt] }
  · rename_i e
    have t1 := t0 { ref := 1, run := 1, k7 := 1 } rfl rfl rfl rfl rfl
    refine dReadTop_ok hcl _ ⟨{ t1 with }, ?_, ?_, ?_⟩
    · simp [Hold]
      omega
    · cgo hc
    · hgo hi

/-! ## Calls of the lower layer -/

theorem J.setInRead {w : X} {s : St} (h : J w s) (x : Bool) (hx : b x = (cnt X.rdD s.th + w.rdD) + (cnt X.rdL s.th + w.rdL)) :
    J w { s with inRead := x } := by
  jgo h

theorem llThread {s : St} (h : T {} s) (hc : C {} s) (hi : H {} s) (hl : s.ll = .opn ∨ s.ll = .closing) :
    Ok (ref s) (J { ref := 1, ll := 1 }) := by
  have hp := h.pos
  have he := h.eq
  rw [ref, if_neg (by omega)]
  refine ⟨_, rfl, ⟨h.live, by simp, by simp at he ⊢; omega, h.tm, h.dtm⟩, ?_, ?_, { hi with }⟩
  · simp [Hold]
    omega
  · cgo hc

theorem J.llSt {w : X} {s : St} (h : J w s) (hw : 0 < w.ll) : s.st ≠ .closed ∧ s.st ≠ .inLlOpen := by
  have h1 := h.c.ll7 (by omega)
  constructor
  · intro e
    have := h.c.ll1 e
    simp [this] at h1
  · intro e
    have := h.c.ll2 e
    simp [this] at h1

theorem rFinish_ok {a : Ans} (k : Nat) {s : St} (h : J { ref := 1, ll := 1 } s) : Ok (rFinish a k s) Inv := by
  unfold rFinish
  refine (setLlEnables_ok k h).bind (fun s1 h1 => ?_)
  exact derefUnlock_fin h1.1.j0

theorem rTop_ok {a : Ans} (k : Nat) {s : St} (h : J { ref := 1, ll := 1 } s) : Ok (rTop a k s) Inv := by
  unfold rTop
  split
  · split
    · exact derefUnlock_fin h.j0
    · rename_i e
      refine park_ok (J.j0 ?_)
      unfold wt
      have := h.c.rd
      jgo h
  · exact rFinish_ok _ h

theorem rWriteLoop_ok {a : Ans} (k : Nat) {s : St} (h : J { ref := 1, ll := 1 } s) : Ok (rWriteLoop a k s) Inv := by
  unfold rWriteLoop
  split
  · exact park_ok ⟨{ h.t with }, { h.c with }, h.hi.write (h.llSt (by simp)).1 rfl⟩
  · exact rTop_ok _ h

theorem llRead_ok {a : Ans} (hcl : a.clOk = true) (err : Nat) {s : St} (h : T {} s) (hc : C {} s) (hi : H {} s)
    (hl : s.ll = .opn ∨ s.ll = .closing) : Ok (llRead a err s) Inv := by
  unfold llRead
  refine (llThread h hc hi hl).bind (fun s1 h1 => ?_)
  split
  · rename_i he
    refine (handleIoerr_ok 0 h1 hcl he (fun _ => h1.llSt (by simp))).bind (fun s2 h2 => ?_)
    exact rFinish_ok _ h2.1
  · split
    · exact rFinish_ok _ h1
    · exact rTop_ok _ h1

theorem schedSt_ok {w : X} {s : St} (h : J w s) (h1 : s.st ≠ .closed ∧ s.st ≠ .inLlOpen) (h2 : w.owe = 0) :
    Ok (sched s) (J w) := by
  refine (sched_ok h.t).imp (fun s1 g => ?_)
  obtain ⟨t1, r, rfl⟩ := g
  refine ⟨t1, h.h, ?_, { h.hi with }⟩
  have hc := h.c
  cgo hc

theorem rRet_ok {a : Ans} (hcl : a.clOk = true) (err : Nat) {s : St} (h : J { ref := 1, rdL := 1, ll := 1 } s) :
    Ok (rRet a err s) Inv := by
  have hback : J { ref := 1, ll := 1 } { s with inRead := false } := by
    have := h.c.rd
    have h8 : cnt X.rdD s.th + cnt X.rdL s.th = 0 := by
      cases e : s.inRead <;> simp [e] at this <;> omega
    jgo h
  unfold rRet
  split
  · have : Ok (rErr a err { s with inRead := false }) (J { ref := 1, ll := 1 }) := by
      unfold rErr
      split
      · rename_i e
        simp only [Bool.and_eq_true, decide_eq_true_eq] at e
        exact (handleIoerr_ok 0 hback hcl e.1 (fun _ => hback.llSt (by simp))).imp (fun _ h => h.1)
      · exact Ok.doIf hback (fun _ => schedSt_ok hback (hback.llSt (by simp)) rfl)
    refine this.bind (fun s1 h1 => ?_)
    exact rFinish_ok _ h1
  · split
    · exact park_ok h.j0
    · have hk : HK { ref := 1, ll := 1 } := .inl (by simp)
      refine (pushCheck_ok 1 hback hcl hk (fun e => absurd e (hback.llSt (by simp)).1)).bind (fun p h1 => ?_)
      refine (checkOps_ok 60 h1 hcl hk).bind (fun s2 h2 => ?_)
      exact rWriteLoop_ok _ h2

theorem rWriteRet_ok {a : Ans} (hcl : a.clOk = true) (err : Nat) {s : St} (h : J { ref := 1, ll := 1 } s) :
    Ok (rWriteRet a err s) Inv := by
  unfold rWriteRet
  split
  · rename_i he
    refine (handleIoerr_ok 0 h hcl he (fun _ => h.llSt (by simp))).bind (fun s2 h2 => ?_)
    exact rTop_ok _ h2.1
  · exact rWriteLoop_ok _ h

theorem wEnd_ok {a : Ans} (k : Nat) {s : St} (h : J { ref := 1, xmL := 1, ll := 1 } s) : Ok (wEnd a k s) Inv := by
  unfold wEnd
  refine (setLlEnables_ok k h).bind (fun s1 h1 => ?_)
  have h1 := h1.1
  have hback : J { ref := 1, ll := 1 } { s1 with inXmit := false } := by
    have := h1.c.xm
    have h8 : cnt X.xmD s1.th + cnt X.xmL s1.th = 0 := by
      cases e : s1.inXmit <;> simp [e] at this <;> omega
    jgo h1
  refine (Ok.doIf hback (fun _ => schedSt_ok hback (hback.llSt (by simp)) rfl)).bind (fun s2 h2 => ?_)
  exact derefUnlock_fin h2.j0

theorem wBody_ok {a : Ans} (hcl : a.clOk = true) (k : Nat) {s : St} (h : J { ref := 1, xmL := 1, ll := 1 } s) :
    Ok (wBody a k s) (fun p => J { ref := 1, xmL := 1, ll := 1 } p.1) := by
  unfold wBody
  have hk : HK { ref := 1, xmL := 1, ll := 1 } := .inl (by simp)
  have : Ok (wPend a k s) (fun p => J { ref := 1, xmL := 1, ll := 1 } p.1) := by
    unfold wPend
    split
    · exact (ulWrite_ok _ h.t h.h).imp (fun p hp => h.fr hp.1 hp.2)
    · exact ⟨_, rfl, h⟩
  refine this.bind (fun p h1 => ?_)
  obtain ⟨s1, err⟩ := p
  simp only at h1 ⊢
  split
  · rename_i he
    refine (handleIoerr_ok _ h1 hcl he (fun _ => h1.llSt (by simp))).bind (fun s2 h2 => ?_)
    exact ⟨_, rfl, h2.1⟩
  · refine (pushCheck_ok _ h1 hcl hk (fun e => absurd e (h1.llSt (by simp)).1)).bind (fun p h2 => ?_)
    refine (checkOps_ok _ h2 hcl hk).bind (fun s2 h2 => ?_)
    exact ⟨_, rfl, h2⟩

theorem wLoop_ok {a : Ans} (hcl : a.clOk = true) (k : Nat) {s : St} (h : J { ref := 1, xmL := 1, ll := 1 } s) :
    Ok (wLoop a k s) Inv := by
  have hpark : ∀ s : St, J { ref := 1, xmL := 1, ll := 1 } s → Ok (park .wWrite { s with tr := .write :: s.tr }) Inv :=
    fun s h => park_ok ⟨{ h.t with }, { h.c with }, h.hi.write (h.llSt (by simp)).1 rfl⟩
  unfold wLoop
  split
  · exact hpark _ h
  · split
    · have h1 : J { ref := 1, xmL := 1, ll := 1 } { s with redo := false } := ⟨{ h.t with }, h.h, { h.c with }, { h.hi with }⟩
      dsimp only
      split
      · refine (wBody_ok hcl (k + 2) h1).bind (fun p h2 => ?_)
        obtain ⟨s2, ok⟩ := p
        simp only at h2 ⊢
        split
        · exact wEnd_ok _ h2
        · split
          · exact hpark _ h2
          · exact wEnd_ok _ h2
      · exact wEnd_ok _ h1
    · exact wEnd_ok _ h

theorem llWriteReady_ok {a : Ans} (hcl : a.clOk = true) {s : St} (h : T {} s) (hc : C {} s) (hi : H {} s)
    (hl : s.ll = .opn ∨ s.ll = .closing) : Ok (llWriteReady a s) Inv := by
  unfold llWriteReady
  refine (llThread h hc hi hl).bind (fun s1 h1 => ?_)
  split
  · exact derefUnlock_fin h1.j0
  · split
    · exact derefUnlock_fin ⟨{ h1.t with }, { h1.c with }, { h1.hi with }⟩
    · rename_i e
      have h2 : J { ref := 1, xmL := 1, ll := 1 } { s1 with canWrite := true, inXmit := true } := by
        have := h1.c.xm
        have h3 := (h1.llSt (by simp)).2
        jgo h1
      refine (wBody_ok hcl 0 h2).bind (fun p h2 => ?_)
      obtain ⟨s2, ok⟩ := p
      simp only at h2 ⊢
      split
      · exact wLoop_ok hcl _ h2
      · exact wEnd_ok _ h2

theorem wRet_ok {a : Ans} (hcl : a.clOk = true) (err : Nat) {s : St} (h : J { ref := 1, xmL := 1, ll := 1 } s) :
    Ok (wRet a err s) Inv := by
  unfold wRet
  split
  · rename_i he
    refine (handleIoerr_ok 0 h hcl he (fun _ => h.llSt (by simp))).bind (fun s2 h2 => ?_)
    exact wEnd_ok _ h2.1
  · exact wLoop_ok hcl _ h

theorem C.opening {w : X} {s : St} (h : C w s) (e : s.ll = .opening) : s.st = .inLlOpen := by
  have h1 := h.ll1
  have h3 := h.ll3
  have h4 := h.ll4
  have h5 := h.ll5
  have h6 := h.ll6
  cases e2 : s.st <;> simp [e2, e] at h1 h3 h4 h5 h6 ⊢

theorem C.closing {w : X} {s : St} (h : C w s) (e : s.ll = .closing) : s.st = .inLlClose ∨ s.st = .inLlIoErr := by
  have h1 := h.ll1
  have h2 := h.ll2
  have h3 := h.ll3
  have h5 := h.ll5
  cases e2 : s.st <;> simp [e2, e] at h1 h2 h3 h5 ⊢

theorem llOpenDone_ok {a : Ans} (hcl : a.clOk = true) (err : Nat) {s : St} (h : T {} s) (hc : C {} s) (hi : H {} s)
    (hl : s.ll = .opening ∨ s.ll = .closing) : Ok (llOpenDone a err (llOpened err s)) Inv := by
  have hp := h.pos
  have he := h.eq
  unfold llOpenDone
  rcases hl with hl | hl
  · have hst := hc.opening hl
    have hb : bst s.st = 1 := by rw [hst]; rfl
    have e1 : s.llErr = 0 := by
      have := hc.err1
      simp [hst] at this
      exact this
    have e2 : s.openErr = 0 := hc.err3 (.inl hst)
    have e3 := hc.od (.inl hst)
    have e4 := hc.cl (.inr hst)
    rw [ref, if_neg (by simp only [llOpened]; omega)]
    simp only [Option.bind_eq_bind, Option.bind_some]
    rw [if_neg (by simp [llOpened, e1, e2])]
    split
    · rename_i hne
      have hll : (if s.ll = .opening then (if err = 0 then LS.opn else LS.closed) else s.ll) = .closed := by
        rw [if_pos hl, if_neg hne]
      simp only [llOpened, hll]
      refine (finishOpen_ok (w := { ref := 1, opn := 1 }) err ?_ (by exact e3) (fun e => absurd e hne)).bind (fun s1 h1 => ?_)
      · refine ⟨h.live, by simp, ?_, h.tm, h.dtm⟩
        simp [hb, show bst .closed = 0 from rfl] at he ⊢
        omega
      · obtain ⟨t1, i, r, l, t, ei, rfl⟩ := h1
        have g := hi.openCb (err := err) ei (by rw [hst]; decide) rfl
        refine park_ok ⟨{ t1 with }, ?_, ?_⟩
        · unfold wt
          cgo hc
        · unfold wt
          hgo g
    · rename_i hne
      have hne : err = 0 := by simpa using hne
      have hll : (if s.ll = .opening then (if err = 0 then LS.opn else LS.closed) else s.ll) = .opn := by
        rw [if_pos hl, if_pos hne]
      simp only [llOpened, hll]
      refine (tryConnectFinish_ok (w := { ref := 1 }) 0 ?_ hcl rfl).bind (fun s1 h1 => ?_)
      · refine ⟨⟨h.live, by simp, ?_, h.tm, h.dtm⟩, ?_, ?_, ?_⟩
        · simp [hb, show bst .inFilterOpen = 1 from rfl] at he ⊢
          omega
        · simp [Hold, show bst .inFilterOpen = 1 from rfl]
          omega
        · cgo hc
        · hgo hi
      · refine (setLlEnables_ok 17 h1).bind (fun s2 h2 => ?_)
        exact derefUnlock_fin h2.1.j0
  · have hst := hc.closing hl
    have hll : (if s.ll = .opening then (if err = 0 then LS.opn else LS.closed) else s.ll) = s.ll := by
      rw [if_neg (by rw [hl]; decide)]
    have eo : s.openErr ≠ 0 := by
      rcases hst with e | e
      · exact hc.err4 (by simp [e])
      · exact (hc.err2 (.inl e)).2
    simp only [llOpened, hll]
    obtain ⟨s1, e, h1⟩ := llThread (s := { s with llCb := false }) { h with } { hc with cb := fun e => by rw [hl] at e; cases e } { hi with } (.inr hl)
    simp only [Option.bind_eq_bind, e, Option.bind_some]
    rw [ref, if_neg (by simp only; omega)] at e
    cases e
    rw [if_pos (by simp [eo])]
    exact derefUnlock_fin h1.j0

theorem llCloseDone_ok {s : St} (h : T {} s) (hc : C {} s) (hi : H {} s) (hl : s.ll = .closing)
    (hn : cnt X.ll s.th = 0) : Ok (llCloseDone { s with ll := .closed, llCb := false }) Inv := by
  have hp := h.pos
  have he := h.eq
  unfold llCloseDone
  rcases hc.closing hl with e | e
  · simp only [e]
    refine (sched_ok (w := {}) ?_).imp (fun s1 h1 => ?_)
    · exact { h with eq := by simp only [e] at he; exact he }
    · obtain ⟨t1, r, rfl⟩ := h1
      refine .inl ⟨t1, ?_, ?_⟩
      · cgo hc
      · hgo hi
  · simp only [e]
    have t0 : T {} { s with st := .ioErr, ll := .closed, llCb := false } :=
      { h with eq := by simp only [e] at he; exact he }
    have hd : s.dClose = false := by
      cases e2 : s.dClose
      · rfl
      · have := hc.dcl e2
        simp [e] at this
    split
    · refine (sched_ok (w := {}) (s := { s with st := .ioErr, ll := .closed, llCb := false, dOpen := true }) { t0 with }).imp (fun s1 h1 => ?_)
      obtain ⟨t1, r, rfl⟩ := h1
      refine .inl ⟨t1, ?_, ?_⟩
      · cgo hc
      · hgo hi
    · refine ⟨_, rfl, .inl ⟨t0, ?_, ?_⟩⟩
      · cgo hc
      · hgo hi

/-! ## Timers -/

theorem tTail_ok {a : Ans} (hcl : a.clOk = true) {s : St} (h : J { ref := 1, tT := 1, k7 := 1 } s)
    (hb : s.st = .closed → a.b 20 = false) : Ok (tTail a 20 s) Inv := by
  unfold tTail
  refine (pushCheck_ok 20 h hcl (.inr (.inl ⟨by simp, rfl⟩)) hb).bind (fun p h1 => ?_)
  refine (setLlEnables_ok _ h1).bind (fun s2 h2 => ?_)
  exact derefUnlock_tm h2.1.j0

theorem timeout_ok {a : Ans} (hcl : a.clOk = true) {s : St} (h : J { ref := 1, tT := 1, k7 := 1 } s)
    (hb : s.st = .closed → a.b 20 = false) : Ok (timeout a s) Inv := by
  have hpark : Ok (park .tFilt s) Inv := by
    refine park_ok (J.j0 ?_)
    unfold wt
    jgo h
  unfold timeout
  split
  · rename_i e
    refine (tryConnectFinish_nc 0 h hcl e).bind (fun s1 h1 => ?_)
    exact tTail_ok hcl h1.1 (fun e => absurd e h1.2)
  · rename_i e
    refine (tryClose_nc 0 h hcl e).bind (fun s1 h1 => ?_)
    exact tTail_ok hcl h1.1 (fun e => absurd e h1.2)
  · exact hpark
  · exact hpark
  · exact tTail_ok hcl h hb

theorem timeoutRet_ok {a : Ans} (hcl : a.clOk = true) (err : Nat) {s : St} (h : J { ref := 1, tT := 1, k7 := 1 } s)
    (hb : s.st = .closed → a.b 20 = false) (he : s.st = .closed ∨ s.st = .inLlOpen → err = 0) :
    Ok (timeoutRet a err s) Inv := by
  unfold timeoutRet
  by_cases e : err = 0
  · have : doIf (err ≠ 0) (handleIoerr a 0 err) s = some s := by simp [doIf, e]
    rw [this]
    exact tTail_ok hcl h hb
  · have hst : s.st ≠ .closed ∧ s.st ≠ .inLlOpen := ⟨fun h => e (he (.inl h)), fun h => e (he (.inr h))⟩
    have : doIf (err ≠ 0) (handleIoerr a 0 err) s = handleIoerr a 0 err s := by simp [doIf, e]
    rw [this]
    refine (handleIoerr_ok 0 h hcl e (fun _ => hst)).bind (fun s1 h1 => ?_)
    exact tTail_ok hcl h1.1 (fun e => absurd e (h1.2.nc hst.1))

theorem drainTimeout_ok {a : Ans} (hcl : a.clOk = true) {s : St} (h : J { ref := 1, dT := 1 } s) :
    Ok (drainTimeout a s) Inv := by
  unfold drainTimeout
  have : Ok (doIf (s.st = .waitDrain) (closeFromWaitDrain a) s) (J { ref := 1, dT := 1 }) := by
    refine Ok.doIf h (fun e => ?_)
    have e : s.st = .waitDrain := by simpa using e
    rw [closeFromWaitDrain_eq hcl h.c.inw]
    have he := h.t.eq
    have hh := h.h
    have hc := h.c
    have hi := h.hi
    refine ⟨_, rfl, { h.t with eq := by simp only [e] at he; exact he }, by simp only [Hold, e] at hh; exact hh, ?_, ?_⟩
    · cgo hc
    · hgo hi
  refine this.bind (fun s1 h1 => ?_)
  exact derefUnlock_dtm h1.j0

theorem TmOk.fireDone {t : Tm} {n : Nat} (h : TmOk t n) (e1 : t.inHeap = true) (e2 : t.inHandler = true) :
    TmOk { t with inHeap := false, stopped := true, done := false } (n + 1) ∧ tmr t = 1 := by
  obtain ⟨h1, h2, h3, h4⟩ := h
  obtain ⟨a, c, d, f⟩ := t
  simp only at e1 e2
  subst e1 e2
  cases c <;> cases f <;> simp [tmr] at * <;> (constructor <;> simp <;> omega)

theorem TmOk.fire {t : Tm} {n : Nat} (h : TmOk t n) (e1 : t.inHeap = true) (e2 : t.inHandler = false) :
    TmOk { t with inHeap := false, stopped := true, inHandler := true } (n + 1) ∧ tmr t = 1 := by
  obtain ⟨h1, h2, h3, h4⟩ := h
  obtain ⟨a, c, d, f⟩ := t
  simp only at e1 e2
  subst e1 e2
  cases c <;> cases f <;> simp [tmr] at * <;> (constructor <;> simp <;> omega)

theorem TmOk.ret {t : Tm} {n : Nat} (h : TmOk t (n + 1)) : TmOk t.ret n ∧ tmr t.ret = tmr t := by
  obtain ⟨h1, h2, h3, h4⟩ := h
  obtain ⟨a, c, d, f⟩ := t
  cases a <;> cases c <;> cases d <;> cases f <;> simp [tmr, Tm.ret] at * <;> first | omega | (constructor <;> simp <;> omega)

theorem fire_ok {s : St} (h : T {} s) (hc : C {} s) (hi : H {} s) (e : s.tm.inHeap = true) : Inv (fire s) := by
  have he := h.eq
  have hp := h.pos
  unfold fire
  dsimp only
  split
  · rename_i e2
    obtain ⟨h1, h2⟩ := h.tm.fireDone e e2
    obtain ⟨x, e3, h3⟩ := park_ok (p := .tStopped) (s := { s with tm := { s.tm with inHeap := false, stopped := true, done := false } })
      ⟨⟨h.live, h.pos, by
        simp only [wt, tmr] at he h2 ⊢
        rw [h2] at he
        simp
        simp at he
        omega, h1, h.dtm⟩, by unfold wt; cgo hc, { hi with }⟩
    cases e3
    exact h3
  · rename_i e2
    have e2 : s.tm.inHandler = false := by simpa using e2
    obtain ⟨h1, h2⟩ := h.tm.fire e e2
    have h5 : s.tm.done = false := by
      have := h.tm.hand
      simp [e2] at this
      cases e6 : s.tm.done
      · rfl
      · simp [e6] at this
    obtain ⟨x, e3, h3⟩ := park_ok (p := .tStart) (s := { s with tm := { s.tm with inHeap := false, stopped := true, inHandler := true } })
      ⟨⟨h.live, h.pos, by
        simp only [wt, tmr] at he h2 ⊢
        rw [h2] at he
        simp
        simp at he
        omega, h1, h.dtm⟩, by unfold wt; cgo hc, { hi with }⟩
    cases e3
    exact h3

theorem dfire_ok {s : St} (h : T {} s) (hc : C {} s) (hi : H {} s) (e : s.dtm.inHeap = true) : Inv (dfire s) := by
  have he := h.eq
  have hp := h.pos
  unfold dfire
  dsimp only
  split
  · rename_i e2
    obtain ⟨h1, h2⟩ := h.dtm.fireDone e e2
    obtain ⟨x, e3, h3⟩ := park_ok (p := .dtStopped) (s := { s with dtm := { s.dtm with inHeap := false, stopped := true, done := false } })
      ⟨⟨h.live, h.pos, by
        simp only [wt, tmr] at he h2 ⊢
        rw [h2] at he
        simp
        simp at he
        omega, h.tm, h1⟩, by unfold wt; cgo hc, { hi with }⟩
    cases e3
    exact h3
  · rename_i e2
    have e2 : s.dtm.inHandler = false := by simpa using e2
    obtain ⟨h1, h2⟩ := h.dtm.fire e e2
    obtain ⟨x, e3, h3⟩ := park_ok (p := .dtStart) (s := { s with dtm := { s.dtm with inHeap := false, stopped := true, inHandler := true } })
      ⟨⟨h.live, h.pos, by
        simp only [wt, tmr] at he h2 ⊢
        rw [h2] at he
        simp
        simp at he
        omega, h.tm, h1⟩, by unfold wt; cgo hc, { hi with }⟩
    cases e3
    exact h3

end Gensio.Base
