import Verif.Lemmas.LlFdRd

/-! Closing, retrying and the timer of the descriptor layer keep the invariants, see `Verif.Lemmas.LlFd`. -/

namespace Gensio.LlFd

set_option maxHeartbeats 1000000

/-- Closing the descriptor. -/
theorem closeIod_ok {s : St} {i : Nat} (hi : s.iod = some i) (hc : (s.iods i).isClosed = false)
    (hr : (s.iods i).reg = .cleared ∨ (s.iods i).reg = .none_) :
    ∃ f, closeIod s = some { s with iods := f, iod := none } ∧ (∀ j, j ≠ i → f j = s.iods j) ∧ (f i).isClosed = true ∧
      (f i).reg = (s.iods i).reg := by
  have e : closeIod s = some { s.setIod i { s.iods i with isClosed := true } with iod := none } := by
    unfold closeIod
    simp only [hi]
    rw [if_neg (by rcases hr with hr | hr <;> simp [hc, hr])]
  exact ⟨fun j => if j = i then { s.iods i with isClosed := true } else s.iods j, e, fun j hj => if_neg hj, by simp, by simp⟩

/-- `Desc` after the descriptor was closed. -/
theorem Desc.close {s s' : St} {i : Nat} (h : Desc s) (hi : s.iod = some i) (h1 : ∀ j, j ≠ i → s'.iods j = s.iods j)
    (h2 : (s'.iods i).isClosed = true) (h3 : (s'.iods i).reg = .cleared ∨ (s'.iods i).reg = .none_) (h4 : s'.iod = none)
    (h5 : s'.nIod = s.nIod) : Desc s' := by
  obtain ⟨a, b, c⟩ := h
  constructor
  · intro j _
    by_cases e : j = i
    · subst e; rcases h3 with h3 | h3 <;> simp [h3]
    · rw [h1 j e]; exact a j (by rw [hi]; simpa using Ne.symm e)
  · intro j hj _
    by_cases e : j = i
    · subst e; exact h2
    · rw [h1 j e]; rw [h5] at hj; exact b j hj (by rw [hi]; simpa using Ne.symm e)
  · intro j hj; rw [h4] at hj; cases hj

/-- `Desc` with a new descriptor. -/
theorem Desc.fresh {s s' : St} (h : Desc s) (hi : s.iod = none) (h1 : ∀ j, j ≠ s.nIod → s'.iods j = s.iods j)
    (h2 : (s'.iods s.nIod).isClosed = false) (h4 : s'.iod = some s.nIod) (h5 : s'.nIod = s.nIod + 1) : Desc s' := by
  obtain ⟨a, b, c⟩ := h
  constructor
  · intro j hj
    have e : j ≠ s.nIod := by rintro rfl; exact hj h4
    rw [h1 j e]; exact a j (by simp [hi])
  · intro j hj hj'
    have e : j ≠ s.nIod := by rintro rfl; exact hj' h4
    rw [h1 j e]; exact b j (by omega) (by simp [hi])
  · intro j hj
    rw [h4] at hj
    simp only [Option.some.injEq] at hj
    subst hj
    exact ⟨by omega, h2⟩

/-- `Desc` with a new descriptor that was closed again. -/
theorem Desc.fresh' {s s' : St} (h : Desc s) (hi : s.iod = none) (h1 : ∀ j, j ≠ s.nIod → s'.iods j = s.iods j)
    (h2 : (s'.iods s.nIod).isClosed = true) (h3 : (s'.iods s.nIod).reg = .none_) (h4 : s'.iod = none) (h5 : s'.nIod = s.nIod + 1) :
    Desc s' := by
  obtain ⟨a, b, c⟩ := h
  constructor
  · intro j _
    by_cases e : j = s.nIod
    · subst e; simp [h3]
    · rw [h1 j e]; exact a j (by simp [hi])
  · intro j hj _
    by_cases e : j = s.nIod
    · subst e; exact h2
    · rw [h1 j e]; exact b j (by omega) (by simp [hi])
  · intro j hj; rw [h4] at hj; cases hj

theorem cleared_reg {k : X} {d : Iod} {s : St} (c : Core k d s) (hk : 0 < k.cl) : s.iod.isSome = true ∧ d.reg = .cleared := by
  have h1 := c.pNone; have h2 := c.pAct; have h3 := c.pClr; have h4 := c.pSome
  cases hi : s.iod.isSome with
  | false => have := (h1 hi).1; omega
  | true =>
    refine ⟨rfl, ?_⟩
    cases hr : d.reg with
    | none_ => exact absurd hr (h4 hi)
    | active => have := (h2 hi hr).2.2; omega
    | clearing => have := (h3 hi hr).2; omega
    | cleared => rfl

/-- Scheduling the runner. -/
theorem sched_ok (s : St) (r : 0 < s.ref) :
    ∃ n b, sched s = some { s with ref := n, defPend := true, runQ := b } ∧ n + b2n s.defPend = s.ref + 1 ∧
      b2n b + b2n s.defPend = 1 + b2n (s.runQ && s.defPend) ∧ (s.defPend = true → b = s.runQ) ∧ (s.defPend = false → b = true) := by
  unfold sched
  cases e : s.defPend with
  | true => exact ⟨s.ref, s.runQ, by simp [← e], by simp, by simp; omega, by simp, by simp⟩
  | false => exact ⟨s.ref + 1, true, by simp [LlFd.ref, r], by simp, by simp, by simp, by simp⟩

/-- Threads when no descriptor is in use hold none. -/
theorem Lst.none {s s' : St} (h : Lst s) (hn : (tot s.th).nh = 0) (hth : s'.th = s.th) : Lst s' := by
  intro t ht
  rw [hth] at ht
  exact ⟨(h t ht).1, .inl (nh_zero hn t ht)⟩

theorem Core.nh0 {x m : X} {d : Iod} {s : St} (c : Core (x.add m) d s) (hr : d.reg = .cleared) : m.nh = 0 := by
  refine Nat.eq_zero_of_not_pos fun p => ?_
  have := (c.hreg (by simp only [X.add]; omega)).2
  simp [hr] at this

theorem checkClose_ok {s : St} {cc : Bool} (h : Inv { ref := 1, cl := 1 } s) (hs : s.st ≠ .inOpenRetry)
    (hcc : cc = true → s.slow = false) : Ok ((checkClose s cc).bind derefUnlock) := by
  have hr := cleared_reg h.core (by simp [X.add]; omega)
  obtain ⟨i, hi⟩ := Option.isSome_iff_exists.1 hr.1
  have hr := hr.2
  rw [cur_some hi] at hr
  have hc := h.open_ hi
  have c := h.core' hi
  have q := h.cnt
  have rp : 0 < s.ref := h.refPos (by simp [hi])
  unfold checkClose
  cases cc with
  | true =>
    have sl := hcc rfl
    rw [if_pos rfl]
    obtain ⟨r', t, b, e, u, nz⟩ := startTimer_ok (s := s) c.tmRun rp
    rw [e, Option.bind_some]
    refine Inv.fin (r := 1) ?_ rfl
    refine h.frameU hi (Upd.refl _ _) rfl rfl rfl rfl rfl rfl rfl rfl ?_
    generalize tot s.th = k at *
    clear h
    cases c; cases q; cases u
    leaf
  | false =>
    have nh := c.nh0 hr
    obtain ⟨f, e1, f1, f2, f3⟩ := closeIod_ok hi hc (.inl hr)
    rw [if_neg (by simp)]
    simp only [Option.bind_eq_bind]
    rw [if_pos (by simp [hi]), e1, Option.bind_some]
    unfold finishCleared
    obtain ⟨n, b, e2, g1, g2, g3, g4⟩ := sched_ok { s with iods := f, iod := none, dOpen := s.dOpen || s.st = .openErrWait, dClose := true } rp
    dsimp only at e2 g1 g2 g3 g4 ⊢
    rw [e2, Option.bind_some]
    refine Inv.fin (r := 1) ?_ rfl
    refine ⟨?_, h.lst.none nh rfl, h.desc.close hi f1 f2 (by rw [f3]; exact .inl hr) rfl rfl, h.hist.frame rfl rfl rfl rfl rfl⟩
    rw [cur_none rfl]
    dsimp only
    generalize tot s.th = k at *
    clear h e1 e2
    cases c; cases q
    leaf

/-- `retry_open` failed. -/
theorem retryFail_ok {s : St} {f : Nat → Iod} {n e i : Nat} (h : Inv { ref := 1, cl := 1 } s) (hs : s.st = .inOpenRetry)
    (hi : s.iod = some i) (hr : (s.iods i).reg = .cleared) (e0 : e ≠ 0)
    (hd : Desc { s with iods := f, nIod := n, iod := none }) :
    Ok ((deref { s with iods := f, nIod := n, iod := none }).bind (fun s => finishOpen s e .fin none)) := by
  have c := h.core' hi
  have q := h.cnt
  have rp : s.ref > 1 := by
    have := c.refc
    simp only [X.add, hi, Option.isSome_some, b2n_true] at this; omega
  have nh := c.nh0 hr
  have op : opening s.ev = true := by rw [c.op]; simp [opn, hs]
  have hm := (h.hist.num op).1
  unfold deref finishOpen
  dsimp only
  rw [if_pos rp, Option.bind_some]
  simp only [hm, ne_eq, e0, not_false_eq_true, if_true]
  refine ⟨_, rfl, ?_⟩
  refine Inv.put ?_ (.inl rfl) (.inl rfl)
  refine ⟨?_, h.lst.none nh rfl, { hd with }, { h.hist.openDone op hm e (fun x => absurd x e0) with }⟩
  rw [cur_none rfl]
  have e1 : opening (Ev.openDone (s.nOpen - 1) e :: s.ev) = false := rfl
  have e2 : closing (Ev.openDone (s.nOpen - 1) e :: s.ev) = closing s.ev := rfl
  simp only [St.log]
  generalize tot s.th = k at *
  clear h
  cases c; cases q
  leaf

/-- `retry_open` works on it. -/
theorem retryOk_ok {s : St} {f : Nat → Iod} {i j r' : Nat} {t : TSt} {b : Bool} (h : Inv { ref := 1, cl := 1 } s) (hs : s.st = .inOpenRetry)
    (hi : s.iod = some i) (hr : (s.iods i).reg = .cleared) (hj : (f j).reg = .active) (hrd : (f j).rd = false) (u : TmUpd s r' t b)
    (hd : Desc { s with iods := f, nIod := j + 1, iod := some j }) :
    Ok ((setWr { s with iods := f, nIod := j + 1, iod := some j, ref := r', tm := t, tmRun := b, st := .inOpen } (some j) true).bind
      (fun s => (setEx s s.iod true).bind derefUnlock)) := by
  have c := h.core' hi
  have q := h.cnt
  have nh := c.nh0 hr
  have hc := (hd.lt j rfl).2
  obtain ⟨g, e, ug, a1, a2⟩ := wrExI (s := { s with iods := f, nIod := j + 1, iod := some j, ref := r', tm := t, tmRun := b, st := .inOpen })
    rfl true (fun _ => true) hc
  have e1 : ∀ o : Option St, o.bind (fun s => (setEx s s.iod true).bind derefUnlock) =
      (o.bind (fun s => setEx s s.iod true)).bind derefUnlock := by
    intro o; cases o <;> rfl
  rw [e1, e]
  refine Inv.fin (r := 1) ?_ rfl
  have hd2 := hd.updC (s' := { s with iods := g, nIod := j + 1, iod := some j, ref := r', tm := t, tmRun := b, st := .inOpen }) rfl
    ug.toC rfl rfl
  refine ⟨?_, h.lst.none nh rfl, hd2, h.hist.frame rfl rfl rfl rfl rfl⟩
  rw [cur_some rfl]
  have ur := ug.reg
  dsimp only at *
  generalize tot s.th = k at *
  clear h e e1 hd hd2
  cases c; cases q; cases u
  leaf

theorem cleared_ok {s : St} {a : Arg} (h : Inv (xOf ⟨.cl0, none⟩) s) (h1 : a.ro ≠ .done) (h2 : a.ro ≠ .err 0)
    (h3 : a.cc = true → s.slow = false) : Ok (cleared s a) := by
  have hr := cleared_reg h.core (by simp [X.add, xOf, Pc.cl]; omega)
  obtain ⟨i, hi⟩ := Option.isSome_iff_exists.1 hr.1
  have hr := hr.2
  rw [cur_some hi] at hr
  unfold cleared
  rw [h.lockRef (by simp [hi])]
  simp only [Option.bind_eq_bind, Option.bind_some]
  obtain ⟨s1, e1, hs, k⟩ := h.ref (h.refPos (by simp [hi]))
  rw [e1, Option.bind_some]
  have hi1 : s1.iod = some i := by rw [hs]; exact hi
  have hr1 : (s1.iods i).reg = .cleared := by rw [hs]; exact hr
  have h31 : a.cc = true → s1.slow = false := by rw [hs]; exact h3
  have k : Inv { ref := 1, cl := 1 } s1 := k
  clear hs e1 h hi hr h3
  have hc := k.open_ hi1
  by_cases o : s1.st = .inOpenRetry
  · rw [if_pos o]
    unfold retryOpen
    obtain ⟨f, e2, f1, f2, f3⟩ := closeIod_ok hi1 hc (.inl hr1)
    have d0 : Desc { s1 with iods := f, iod := none } := k.desc.close hi1 f1 f2 (by rw [f3]; exact .inl hr1) rfl rfl
    rw [e2]
    simp only [Option.bind_eq_bind, Option.bind_some]
    have fail : ∀ e, e ≠ 0 → ∀ g n, Desc { s1 with iods := g, nIod := n, iod := none } →
        Ok ((some (({ s1 with iods := g, nIod := n, iod := none } : St), e)).bind fun x => if x.2 ≠ 0 then (deref x.1).bind fun s => finishOpen s x.2 .fin none
          else (setWr x.1 x.1.iod true).bind fun s => (setEx s s.iod true).bind derefUnlock) := by
      intro e e0 g n hd
      rw [Option.bind_some, if_pos e0]
      exact retryFail_ok k o hi1 hr1 e0 hd
    have succ : ∀ r : OpRes, r ≠ .done → (∀ e, r ≠ .err e) → Ok (((setupHandlers (newIod { s1 with iods := f, iod := none }) a.hOK).bind fun x =>
        if x.2 = true then (if r = .retry then startTimer x.1 else some x.1).bind fun s => some ({ s with st := .inOpen }, 0)
        else (closeIod x.1).bind fun s => some (s, geNomem)).bind fun x => if x.2 ≠ 0 then (deref x.1).bind fun s => finishOpen s x.2 .fin none
          else (setWr x.1 x.1.iod true).bind fun s => (setEx s s.iod true).bind derefUnlock) := by
      intro r _ _
      have nf : ∀ j, j ≠ s1.nIod → (newIod { s1 with iods := f, iod := none }).iods j = f j := fun j hj => if_neg hj
      have nn : (newIod { s1 with iods := f, iod := none }).iods s1.nIod = {} := if_pos rfl
      cases hok : a.hOK with
      | false =>
        simp only [setupHandlers, newIod, Bool.false_eq_true, if_false, Option.bind_some]
        obtain ⟨g, e3, g1, g2, g3⟩ := closeIod_ok (s := newIod { s1 with iods := f, iod := none }) (i := s1.nIod) rfl (by rw [nn])
          (.inr (by rw [nn]))
        have e3' := e3
        simp only [newIod] at e3'
        rw [e3', Option.bind_some]
        refine fail geNomem (by simp [geNomem]) g (s1.nIod + 1) ?_
        exact d0.fresh' rfl (fun j hj => (g1 j hj).trans (nf j hj)) g2 (by rw [g3, nn]) rfl rfl
      | true =>
        have tm : ∀ S : St, S.ref = s1.ref → S.tm = s1.tm → S.tmRun = s1.tmRun → ∃ r' t b, (if r = .retry then startTimer S else some S) =
            some { S with ref := r', tm := t, tmRun := b } ∧ TmUpd s1 r' t b := by
          intro S h1 h2 h3
          by_cases hrr : r = .retry
          · rw [if_pos hrr]
            obtain ⟨r', t, b, e, u, -⟩ := startTimer_ok (s := S) (by rw [h2, h3]; exact k.core.tmRun)
              (by rw [h1]; exact k.refPos (by simp))
            exact ⟨r', t, b, e, ⟨by rw [← h1, ← h2]; exact u.ref, by rw [← h2, ← h3]; exact u.run, u.ok⟩⟩
          · rw [if_neg hrr]
            exact ⟨S.ref, S.tm, S.tmRun, rfl, ⟨by rw [h1, h2], by rw [h2, h3], by rw [h2, h3]; exact k.core.tmRun⟩⟩
        simp only [setupHandlers, newIod, St.setIod, if_true, Option.bind_some]
        obtain ⟨r', t, b, e3, u⟩ := tm { s1 with
          iods := fun j => if j = s1.nIod then { ({} : Iod) with reg := .active } else if j = s1.nIod then {} else f j,
          iod := some s1.nIod, nIod := s1.nIod + 1 } rfl rfl rfl
        dsimp only at e3
        rw [e3]
        simp only [Option.bind_some, ne_eq, not_true_eq_false, if_false]
        refine retryOk_ok k o hi1 hr1 (by simp) (by simp) u ?_
        refine d0.fresh rfl (fun j hj => ?_) (by simp) rfl rfl
        simp [hj]
    cases ha : a.ro with
    | err e =>
      refine fail e ?_ f s1.nIod d0
      rintro rfl; exact h2 ha
    | done => exact absurd ha h1
    | prog => exact succ .prog (by simp) (by simp)
    | retry => exact succ .retry (by simp) (by simp)
  · rw [if_neg o]
    exact checkClose_ok k o h31

theorem timeout_ok {c : Cfg} {s : St} {a : Arg} (h : Inv (xOf ⟨.tm0, none⟩) s) (h3 : a.cc = true → s.slow = false) :
    Ok (timeout c s a) := by
  have c0 := h.core
  have q := h.cnt
  have hn : s.tm ≠ .stopped ∧ s.tmRun = false := by
    have := c0.tmr
    simp [X.add, xOf, Pc.tm] at this
    constructor
    · intro e; simp [e] at this
    · cases e : s.tmRun with
      | false => rfl
      | true =>
        have e2 : b2n (!decide (s.tm = .stopped)) ≤ 1 := by unfold b2n; split <;> omega
        simp [e] at this; omega
  have rp : 0 < s.ref := by
    have := c0.refc
    have e2 : b2n (decide (s.tm ≠ .stopped)) = 1 := by simp [hn.1]
    rw [e2] at this; omega
  unfold timeout
  rw [lock_ok h rp]
  simp only [Option.bind_eq_bind, Option.bind_some]
  cases ht : s.tm with
  | stopped => exact absurd ht hn.1
  | stopping =>
    refine Inv.fin (r := 1) ?_ rfl
    refine h.frame rfl rfl rfl rfl rfl rfl rfl rfl rfl ?_
    generalize tot s.th = k at *
    generalize cur s = d at *
    clear h
    cases c0; cases q
    leaf
  | restart =>
    simp only [LlFd.ref, if_pos (show s.ref > 0 from rp), Option.bind_some, timerOn, hn.2, Bool.false_eq_true, if_false]
    refine Inv.fin (r := 1) ?_ rfl
    refine h.frame rfl rfl rfl rfl rfl rfl rfl rfl rfl ?_
    generalize tot s.th = k at *
    generalize cur s = d at *
    clear h
    cases c0; cases q
    leaf
  | running =>
    dsimp only
    by_cases o1 : s.st = .inClose
    · rw [if_pos o1]
      refine checkClose_ok (s := { s with tm := .stopped }) ?_ (by simp [o1]) h3
      refine h.frame rfl rfl rfl rfl rfl rfl rfl rfl rfl ?_
      generalize tot s.th = k at *
      generalize cur s = d at *
      clear h
      cases c0; cases q
      leaf
    · rw [if_neg o1]
      have k : Inv { ref := 1 } { s with tm := .stopped } := by
        refine h.frame rfl rfl rfl rfl rfl rfl rfl rfl rfl ?_
        generalize tot s.th = k at *
        generalize cur s = d at *
        clear h
        cases c0; cases q
        leaf
      by_cases o2 : s.st = .inOpen
      · rw [if_pos o2]
        obtain ⟨i, hi, -⟩ := h.active (.inr (.inl o2))
        simp only [hi]
        have := writeReady_ok (c := c) (a := a) (k := .fin) (r := 1) (hd := none) (s := { s with tm := .stopped }) k hi (.inr ⟨rfl, o2⟩)
          (.inl ⟨rfl, rfl⟩)
        rw [hi] at this
        exact this
      · rw [if_neg o2]
        exact k.fin rfl

end Gensio.LlFd
