import Verif.Lemmas.BaseUser

/-!
# Every step keeps the invariant

`Pre` and `Post` say which steps are left out: for each of them `Verif.Props.Base` has a run that goes wrong.
-/

namespace Gensio.Base

/-! ## Calls of the filter without the lock -/

theorem restJ {s : St} (h : T {} s) (hc : C {} s) (hi : H {} s) (hs : s.st ≠ .closed) : J {} s :=
  ⟨h, by simp [Hold, bst, hs]; omega, hc, hi⟩

theorem filtOp_ok {s : St} (n : Nat) (h : T {} s) (hc : C {} s) (hi : H {} s) : Ok (fop n s) Inv := by
  by_cases hs : s.st = .closed
  · unfold fop
    have e : (s.st = .opn || s.st = .waitDrain) = false := by simp [hs]
    simp only [e, Bool.false_eq_true, if_false]
    split
    · exact ⟨_, rfl, .inl ⟨{ h with }, { hc with }, { hi with }⟩⟩
    · exact ⟨_, rfl, .inl ⟨h, hc, hi⟩⟩
    · exact ⟨_, rfl, .inl ⟨{ h with }, { hc with canw := fun _ => rfl, n0 := fun e => ⟨(hc.n0 e).1, (hc.n0 e).2.1, (hc.n0 e).2.2.1, rfl⟩ }, { hi with }⟩⟩
    · exact ⟨_, rfl, .inl ⟨h, hc, hi⟩⟩
  · have j := restJ h hc hi hs
    exact (fop_ok n h j.h).imp (fun s1 h1 => (j.fr h1.1 h1.2).inv)

theorem filtInput_ok {s : St} {a : Ans} (h : T {} s) (hc : C {} s) (hi : H {} s) : Ok (setLlEnables a 0 s) Inv := by
  by_cases hs : s.st = .closed
  · have : setLlEnables a 0 s = some s := by simp [setLlEnables, hs]
    exact ⟨_, this, .inl ⟨h, hc, hi⟩⟩
  · exact (setLlEnables_ok 0 (restJ h hc hi hs)).imp (fun _ h => h.1.inv)

theorem filtOpenDone_ok {s : St} {a : Ans} (hcl : a.clOk = true) (h : T {} s) (hc : C {} s) (hi : H {} s) :
    Ok (filtOpenDone a s) Inv := by
  unfold filtOpenDone
  split
  · rename_i e
    refine (tryConnectFinish_ok 0 (restJ h hc hi (by simp [e])) hcl e).bind (fun s1 h1 => ?_)
    exact (setLlEnables_ok 17 h1).imp (fun _ h => h.1.inv)
  · exact ⟨_, rfl, .inl ⟨h, hc, hi⟩⟩

/-! ## Threads that go on -/

theorem J0.j {w : X} {s : St} (h : J0 w s) (h1 : 0 < w.ref) (h2 : w.owe = 0) : J w s :=
  ⟨h.t, by simp only [Hold, h2]; omega, h.c, h.hi⟩

theorem closePre_ok {s : St} (h : J0 (wt .closePre) s) {i : Nat} (hcd : s.closeDone = some i) :
    J0 (wt .closing) { s with tr := .closeCb i :: s.tr } := by
  have hst := (h.c.pre2 (by simp [wt])).1
  have hp := h.c.pre1
  have hcl : Closing (wt .closePre) s := .inr (.inr (.inr (.inr (by simp [wt]))))
  have hb := h.hi.cd hcl i hcd
  have hl := h.hi.bc i hcd
  refine ⟨{ h.t with }, ?_, ?_⟩
  · have hc := h.c
    unfold wt at hc hp ⊢
    cgo hc
  · have hnc : ¬ Closing (wt .closing) { s with tr := .closeCb i :: s.tr } := by
      simp only [wt] at hp
      simp [Closing, wt, hst]
      omega
    obtain ⟨g_below, g_bo, g_bc, g_og, g_cg, g_q, g_od, g_owe, g_cd, g_po, g_pc, g_lc⟩ := h.hi
    refine ⟨?_, g_bo, g_bc, g_og, ⟨hb.1, hb.2, fun j hj => by have := (g_pc j hj).1; rw [hcd] at this; cases this; rfl, g_cg⟩, g_q, ?_, by simp [wt], ?_, ?_, by simp [pendClose], ?_⟩
    · intro e he
      rcases List.mem_cons.1 he with rfl | he
      · exact hl
      · exact g_below e he
    · intro e
      exact absurd hst e
    · intro e
      exact absurd e hnc
    · intro j hj
      simp only [pendOpen] at hj
      exact g_po j hj
    · intro _
      exact .inl hst

theorem timeout_k7 {w : X} {s : St} {p : Pc} (h : J0 (wt p) s) (hw : w = { wt p with k7 := 1 }) (hr : (wt p).ref = 1)
    (ho : (wt p).owe = 0) (hk : s.dClose = true → cnt X.dop s.th + (wt p).dop = 0) : J w s := by
  subst hw
  refine ⟨{ h.t with }, (h.j (by omega) ho).h, { h.c with k7 := fun e _ => hk e }, { h.hi with }⟩

/-- Steps that run a deferred operation, or a timer, on. -/
def Pc.defer : Pc → Bool
  | .dReadErr | .dFilt | .dFiltCb | .dWrite | .tStart | .tFilt | .closing => true
  | _ => false

theorem resume_ok {s : St} {a : Ans} (hcl : a.clOk = true) (r : Nat) (d : Bool) {p : Pc} (h : J0 (wt p) s)
    (hk : p.defer = true → s.dClose = true → cnt X.dop s.th = 0)
    (hb : p = .tStart ∨ p = .tFilt → s.st = .closed → a.b 20 = false)
    (he : p = .tFilt → s.st = .closed ∨ s.st = .inLlOpen → r = 0) : Ok (resume a r d s p) Inv := by
  have hp := h.t.pos
  have hT := h.t.eq
  have hcl0 := h.c.cl
  cases p with
  | llOpenErr =>
    simp only [resume]
    simp only [wt] at hT
    rw [deref, if_neg (by omega)]
    simp only [Option.bind_eq_bind, Option.bind_some]
    refine derefUnlock_fin (l := 0) (k := 0) ⟨⟨h.t.live, by simp; omega, by simp only; omega, h.t.tm, h.t.dtm⟩, ?_, ?_⟩
    · exact { h.c with }
    · exact { h.hi with }
  | dOpen =>
    refine dReadTop_ok hcl 0 ⟨{ h.t with }, (h.j (by simp [wt]) rfl).h, ?_, { h.hi with }⟩
    have hc := h.c
    unfold wt at hc
    cgo hc
  | dReadErr => exact dReadRet_ok hcl r (timeout_k7 h rfl rfl rfl (hk rfl))
  | dFilt =>
    simp only [resume]
    split
    · exact handler_ok (p := .dFiltCb) (q := .dFilt) h rfl (fun e => by simp [wt] at hcl0; exact hcl0.1 e)
    · exact dReadRet_ok hcl r (timeout_k7 h rfl rfl rfl (hk rfl))
  | dFiltCb =>
    simp only [resume]
    split
    · exact handler_ok (p := .dFiltCb) (q := .dFilt) h rfl (fun e => by simp [wt] at hcl0; exact hcl0.1 e)
    · exact park_ok (p := .dFilt) h
  | dWrite => exact dWriteRet_ok hcl r (timeout_k7 h rfl rfl rfl (hk rfl))
  | closePre =>
    have := (h.c.pre2 (by simp [wt])).2
    obtain ⟨i, hi⟩ := Option.isSome_iff_exists.1 this
    simp only [resume]
    split
    · rename_i e
      rw [hi] at e
      cases e
    · rename_i j e
      exact park_ok (closePre_ok h e)
  | closing =>
    simp only [resume]
    simp only [wt] at hT
    refine (finishClose2_ok (w' := { ref := 1, k7 := 1 }) h.t (by omega) (by simp [wt])).bind (fun s1 h1 => ?_)
    obtain ⟨t1, r1, t, u, rfl⟩ := h1
    refine dEnd_ok hcl 0 ⟨t1, by simp [Hold]; omega, ?_, ?_⟩
    · have hk := hk rfl
      exact { h.c with k7 := fun e _ => by simpa using hk e }
    · exact { h.hi with }
  | rFilt =>
    have hs := J.llSt (h.j (by simp [wt]) rfl) (by simp [wt])
    simp only [resume]
    split
    · exact handler_ok (p := .rFiltCb) (q := .rFilt) h rfl hs.1
    · exact rRet_ok hcl r (h.j (by simp [wt]) rfl)
  | rFiltCb =>
    have hs := J.llSt (h.j (by simp [wt]) rfl) (by simp [wt])
    simp only [resume]
    split
    · exact handler_ok (p := .rFiltCb) (q := .rFilt) h rfl hs.1
    · exact park_ok (p := .rFilt) h
  | rWrite => exact rWriteRet_ok hcl r (h.j (by simp [wt]) rfl)
  | wWrite => exact wRet_ok hcl r (h.j (by simp [wt]) rfl)
  | tStart => exact timeout_ok hcl (timeout_k7 h rfl rfl rfl (hk rfl)) (hb (.inl rfl))
  | tFilt => exact timeoutRet_ok hcl r (timeout_k7 h rfl rfl rfl (hk rfl)) (hb (.inr rfl)) (he rfl)
  | tStopped => exact derefUnlock_tm (k := 0) h
  | tRet =>
    obtain ⟨h1, h2⟩ := h.t.tm.ret
    refine ⟨_, rfl, .inl ⟨⟨h.t.live, hp, ?_, h1, h.t.dtm⟩, { h.c with }, { h.hi with }⟩⟩
    simp only [wt] at hT
    simp only [h2]
    exact hT
  | dtStart => exact drainTimeout_ok hcl (h.j (by simp [wt]) rfl)
  | dtStopped => exact derefUnlock_dtm (k := 0) h
  | dtRet =>
    obtain ⟨h1, h2⟩ := h.t.dtm.ret
    refine ⟨_, rfl, .inl ⟨⟨h.t.live, hp, ?_, h.t.tm, h1⟩, { h.c with }, { h.hi with }⟩⟩
    simp only [wt] at hT
    simp only [h2]
    exact hT

/-! ## Which steps -/

/-- `ll_close` does not fail in this step. -/
def Ev.clOk : Ev → Bool
  | .open_ a | .openNochild a | .serverStart a | .close a | .free a | .write a | .setRead a _ | .setWrite a _
  | .llOpenDone a _ | .llRead a _ | .llWriteReady a | .deferred a | .filtOpenDone a | .filtInput a | .cont a _ _ _ => a.clOk
  | .llCloseDone | .fire | .dfire | .filtOp _ => true

/-- What is assumed when a step begins:
* no open between the unlock in `basen_finish_close` and the call of the close callback;
* no close of an open gensio while its drain timer is running;
* while the open callback is being called from a deferred operation, no other deferred operation or timer goes on once the
  lower layer is closed;
* a timer handler that runs in a closed gensio finds no output in the filter, and the filter reports no error to it when it is
  closed or opening. -/
def Pre (s : St) : Ev → Prop
  | .open_ _ | .openNochild _ | .serverStart _ => .closePre ∉ s.th
  | .close _ | .free _ => s.st = .opn → s.dtm.inHeap = false
  | .deferred _ => s.dClose = true → .dOpen ∉ s.th
  | .cont a i r _ => ((s.th[i]?.any Pc.defer) = true → s.dClose = true → .dOpen ∉ s.th) ∧
    (s.th[i]? = some .tStart ∨ s.th[i]? = some .tFilt → s.st = .closed → a.b 20 = false) ∧
    (s.th[i]? = some .tFilt → s.st = .closed ∨ s.st = .inLlOpen → r = 0)
  | _ => True

/-- What is assumed of the result of a call of open: when it fails the lower layer is closed too. -/
def Post (s' : St) : Ev → Prop
  | .open_ _ | .openNochild _ => s'.st = .closed → s'.ll = .closed
  | _ => True

theorem cnt_pre_zero {l : List Pc} (h : .closePre ∉ l) : cnt X.pre l = 0 :=
  cnt_eq_zero (fun p hp => by cases p <;> first | rfl | exact absurd hp h)

theorem cnt_dop_zero {l : List Pc} (h : .dOpen ∉ l) : cnt X.dop l = 0 :=
  cnt_eq_zero (fun p hp => by cases p <;> first | rfl | exact absurd hp h)

theorem cnt_ll_zero {l : List Pc} (h : ∀ p ∈ l, p.isLl = false) : cnt X.ll l = 0 :=
  cnt_eq_zero (fun p hp => by have := h p hp; cases p <;> first | rfl | simp [Pc.isLl] at this)

theorem init_inv (d : Int) : Inv (init d) := by
  refine .inl ⟨⟨rfl, by simp [init], by simp [init, bst, cnt, tmr], ?_, ?_⟩, ?_, ?_⟩
  · constructor <;> simp [init, cnt]
  · constructor <;> simp [init, cnt]
  · constructor <;> simp [init, cnt]
  · constructor <;> simp [init, cnt, OpenGood, CloseGood, Quiet, pendOpen, pendClose, lastClosed]

/-- Every step is defined and keeps the invariant. -/
theorem step_inv {s : St} {e : Ev} (h : Inv s) (he : En s e) (hcl : e.clOk = true) (hp : Pre s e) :
    Ok (exec e s) (fun s' => Post s' e → Inv s') := by
  rcases h with ⟨h, hc, hi⟩ | hd
  · have hf := h.live
    have nf : ¬ s.freed = true := by simp [hf]
    cases e with
    | cont a i r d =>
      obtain ⟨p, hpi⟩ : ∃ p, s.th[i]? = some p := ⟨_, List.getElem?_eq_getElem he⟩
      unfold exec
      dsimp only
      rw [hpi]
      dsimp only
      rw [if_neg nf]
      obtain ⟨h1, h2, h3⟩ := hp
      rw [hpi] at h1 h2 h3
      simp only [Option.any_some, Option.some.injEq] at h1 h2 h3
      have m := Mv.take hpi
      refine (resume_ok hcl r d (p := p) ⟨m.t h, m.c hc, m.h hi⟩ (fun e1 e2 => ?_) h2 h3).imp (fun _ h _ => h)
      have := cnt_dop_zero (h1 e1 e2)
      have h4 := m.dop
      simp at h4
      simp only
      omega
    | open_ a =>
      unfold exec
      dsimp only
      rw [if_neg nf]
      exact open_ok hcl h hc hi he (cnt_pre_zero hp)
    | openNochild a =>
      unfold exec
      dsimp only
      rw [if_neg nf]
      exact openNochild_ok hcl h hc hi he (cnt_pre_zero hp)
    | serverStart a =>
      unfold exec
      dsimp only
      rw [if_neg nf]
      exact (serverStart_ok h hc hi he.1 he.2 (cnt_pre_zero hp)).imp (fun _ h _ => h)
    | close a =>
      unfold exec
      dsimp only
      rw [if_neg nf]
      exact (close_ok hcl h hc hi he hp).imp (fun _ h _ => h)
    | free a =>
      unfold exec
      dsimp only
      rw [if_neg nf]
      exact (free_ok hcl h hc hi he hp).imp (fun _ h _ => h)
    | write a =>
      unfold exec
      dsimp only
      rw [if_neg nf]
      exact (write_ok hcl (userJ h hc hi he)).imp (fun _ h _ => h)
    | setRead a en =>
      unfold exec
      dsimp only
      rw [if_neg nf]
      exact (setRead_ok en (userJ h hc hi he)).imp (fun _ h _ => h)
    | setWrite a en =>
      unfold exec
      dsimp only
      rw [if_neg nf]
      exact (setWrite_ok en (userJ h hc hi he)).imp (fun _ h _ => h)
    | llOpenDone a err =>
      unfold exec
      dsimp only
      rw [if_neg nf]
      exact (llOpenDone_ok hcl err h hc hi he.2).imp (fun _ h _ => h)
    | llCloseDone =>
      unfold exec
      dsimp only
      rw [if_neg nf]
      exact (llCloseDone_ok h hc hi he.1 (cnt_ll_zero he.2)).imp (fun _ h _ => h)
    | llRead a err =>
      unfold exec
      dsimp only
      rw [if_neg nf]
      exact (llRead_ok hcl err h hc hi he.2).imp (fun _ h _ => h)
    | llWriteReady a =>
      unfold exec
      dsimp only
      rw [if_neg nf]
      exact (llWriteReady_ok hcl h hc hi he.2).imp (fun _ h _ => h)
    | deferred a =>
      unfold exec
      dsimp only
      rw [if_neg nf]
      exact (deferred_ok hcl h hc hi he (fun e => cnt_dop_zero (hp e))).imp (fun _ h _ => h)
    | fire =>
      unfold exec
      dsimp only
      rw [if_neg nf]
      exact ⟨_, rfl, fun _ => fire_ok h hc hi he⟩
    | dfire =>
      unfold exec
      dsimp only
      rw [if_neg nf]
      exact ⟨_, rfl, fun _ => dfire_ok h hc hi he⟩
    | filtOpenDone a =>
      unfold exec
      dsimp only
      rw [if_neg nf]
      exact (filtOpenDone_ok hcl h hc hi).imp (fun _ h _ => h)
    | filtInput a =>
      unfold exec
      dsimp only
      rw [if_neg nf]
      exact (filtInput_ok h hc hi).imp (fun _ h _ => h)
    | filtOp n =>
      unfold exec
      dsimp only
      rw [if_neg nf]
      exact (filtOp_ok n h hc hi).imp (fun _ h _ => h)
  · obtain ⟨d1, d2, d3, d4, d5, d6, d7, d8, d9, d11, d10⟩ := hd
    cases e with
    | cont a i r d =>
      obtain ⟨p, hpi⟩ : ∃ p, s.th[i]? = some p := ⟨_, List.getElem?_eq_getElem he⟩
      simp only [exec, hpi, d1, if_true]
      rw [if_pos (d4 p (List.mem_of_getElem? hpi))]
      refine ⟨_, rfl, fun _ => .inr ⟨rfl, d2, d3, fun q hq => d4 q (List.mem_of_mem_eraseIdx hq), d5, d6, d7, d8, d9, d11, ?_⟩⟩
      have hz : ∀ l : List Pc, (∀ p ∈ l, p.out = true) → cnt X.pre l = 0 := by
        intro l hl
        refine cnt_pre_zero (fun hm => ?_)
        have := hl _ hm
        simp [Pc.out] at this
      have h1 := hz _ d4
      have h2 := hz (s.th.eraseIdx i) (fun q hq => d4 q (List.mem_of_mem_eraseIdx hq))
      hgo d10
    | serverStart a => simp [En, d3] at he
    | llCloseDone => simp [En, d5] at he
    | deferred a => simp [En, d6] at he
    | fire => simp [En, d7] at he
    | dfire => simp [En, d8] at he
    | llOpenDone a err => simp [En, d5] at he
    | llRead a err => simp [En, d5] at he
    | llWriteReady a => simp [En, d5] at he
    | filtOpenDone a => simp [En, d1] at he
    | filtInput a => simp [En, d1] at he
    | filtOp n => simp [En, d1] at he
    | _ => simp [En, d3] at he

end Gensio.Base
