import Verif.Lemmas.LlFdUser

/-! Opening, the calls by the selector, and all steps of the descriptor layer keep the invariants, see `Verif.Lemmas.LlFd`. -/

namespace Gensio.LlFd

set_option maxHeartbeats 1000000

/-- `fd_open` when there is a descriptor. -/
theorem openSet_ok {s : St} {f : Nat → Iod} {r : OpRes} (h : Inv x0 s) (hf : s.freed = false) (hs : s.st = .closed) (hi : s.iod = none)
    (hdc : s.dClose = false) (hl : (tot s.th).late = 0) (hc : (tot s.th).cc = 0) (h1 : s.rdEn = false) (h2 : s.wrEn = false) (hb : s.buf = [])
    (hq : s.closeReq = false) (hr : r = .done ∨ s.slow = true)
    (fa : (f s.nIod).reg = .active) (frd : (f s.nIod).rd = false)
    (hd : Desc { s with iods := f, nIod := s.nIod + 1, iod := some s.nIod }) :
    Ok (openSet { s with iods := f, nIod := s.nIod + 1, iod := some s.nIod } r) := by
  have rp := h.refPos (.inr (.inl hf))
  have c := h.core
  have q := h.cnt
  rw [cur_none hi] at c
  have nh : (tot s.th).nh = 0 := by
    refine Nat.eq_zero_of_not_pos fun p => ?_
    have := (c.hreg (by simp only [X.add, x0]; omega)).1
    simp [hi] at this
  have op : opening s.ev = false := by
    rw [c.op]
    have := (c.pNone (by simp [hi])).2
    simp only [hdc, hs] at this
    simp at this
    simp [opn, hs, this]
  unfold openSet
  simp only [Option.bind_eq_bind]
  by_cases hr' : r = .done
  · rw [if_pos hr', Option.bind_some]
    refine ⟨_, if_pos rp, ?_⟩
    simp only [St.log]
    refine ⟨?_, h.lst.none nh rfl, { hd with }, ?_⟩
    · rw [cur_some rfl]
      dsimp only
      have e1 : opening (Ev.openNow (s.nOpen + 1 - 1) :: s.ev) = opening s.ev := rfl
      have e2 : closing (Ev.openNow (s.nOpen + 1 - 1) :: s.ev) = closing s.ev := rfl
      generalize tot s.th = k at *
      clear h
      cases c; cases q
      leaf
    · exact { h.hist.openNow op (some s.nOpen) with }
  · rw [if_neg hr']
    have sl : s.slow = true := by rcases hr with e | e; exact absurd e hr'; exact e
    have tm : ∀ S : St, S.ref = s.ref → S.tm = s.tm → S.tmRun = s.tmRun → ∃ r' t b, (if r = .retry then startTimer S else some S) =
        some { S with ref := r', tm := t, tmRun := b } ∧ TmUpd s r' t b := by
      intro S h1 h2 h3
      by_cases hrr : r = .retry
      · rw [if_pos hrr]
        obtain ⟨r', t, b, e, u, -⟩ := startTimer_ok (s := S) (by rw [h2, h3]; exact c.tmRun) (by rw [h1]; exact rp)
        exact ⟨r', t, b, e, ⟨by rw [← h1, ← h2]; exact u.ref, by rw [← h2, ← h3]; exact u.run, u.ok⟩⟩
      · rw [if_neg hrr]
        exact ⟨S.ref, S.tm, S.tmRun, rfl, ⟨by rw [h1, h2], by rw [h2, h3], by rw [h2, h3]; exact c.tmRun⟩⟩
    obtain ⟨r', t, b, e3, u⟩ := tm { s with iods := f, nIod := s.nIod + 1, iod := some s.nIod, openDone := some s.nOpen, nOpen := s.nOpen + 1 } rfl rfl rfl
    rw [e3]
    simp only [Option.bind_some]
    obtain ⟨g, e4, ug, a1, a2⟩ := wrExI (s := { s with iods := f, nIod := s.nIod + 1, iod := some s.nIod, openDone := some s.nOpen, nOpen := s.nOpen + 1, ref := r', tm := t, tmRun := b, st := .inOpen })
      rfl true (fun _ => true) (hd.lt s.nIod rfl).2
    have e5 : ∀ (o : Option St) (p : St → St), o.bind (fun s => (setEx s s.iod true).bind (fun s => some (p s))) =
      (o.bind (fun s => setEx s s.iod true)).bind (fun s => some (p s)) := by
      intro o p; cases o <;> rfl
    rw [e5 _ (fun s => s.log (.openAcc (s.nOpen - 1))), e4]
    have r'p : r' > 0 := by
      have x1 := u.ref
      have x2 := c.refc
      have x3 : b2n (decide (s.tm ≠ .stopped)) ≤ s.ref - 1 := by
        simp only [hf, Bool.not_false, b2n_true] at x2; omega
      omega
    simp only [Option.bind_some, LlFd.ref, St.log, Nat.add_sub_cancel]
    rw [if_pos r'p]
    refine ⟨_, rfl, ?_⟩
    have hd2 := hd.updC (s' := { s with iods := g, nIod := s.nIod + 1, iod := some s.nIod }) rfl ug.toC rfl rfl
    refine ⟨?_, h.lst.none nh rfl, { hd2 with }, { h.hist.openAcc op with }⟩
    rw [cur_some rfl]
    have e1 : opening (Ev.openAcc s.nOpen :: s.ev) = true := rfl
    have e2 : closing (Ev.openAcc s.nOpen :: s.ev) = closing s.ev := rfl
    have ur := ug.reg
    dsimp only at *
    generalize tot s.th = k at *
    clear h e3 e4 e5 hd hd2 tm
    cases c; cases q; cases u
    leaf

theorem open_ok {s : St} {r : OpRes} {ok : Bool} (h : Inv x0 s) (hf : s.freed = false) (hcl : closing s.ev = false)
    (hoc : (tot s.th).oc = 0) (h1 : s.rdEn = false) (h2 : s.wrEn = false) (hr : s.slow = true ∨ (r ≠ .prog ∧ r ≠ .retry)) :
    Ok (open_ s r ok) := by
  have rp := h.refPos (.inr (.inl hf))
  unfold LlFd.open_
  rw [lock_ok h rp]
  simp only [Option.bind_eq_bind, Option.bind_some]
  by_cases hs : s.st = .closed
  · rw [if_neg (by simp [hs])]
    have c := h.core
    have q := h.cnt
    have hi : s.iod = none := by
      cases e : s.iod with
      | none => rfl
      | some i => have := c.pseudo hs (by simp [e]); rw [hcl] at this; cases this
    have hcd : s.closeDone.isSome = false := by rw [← c.cls]; exact hcl
    have pn := (c.pNone (by simp [hi])).2
    have hob : (x0.add (tot s.th)).ob = 0 := by simp only [x0, X.add]; have := q.ob; omega
    have hdc : s.dClose = false ∧ s.dOpen = false := by simp [hs, hcd, hob] at pn; exact pn
    have hl : (tot s.th).late = 0 := by
      have := q.late
      have : (tot s.th).df = 0 := by
        refine Nat.eq_zero_of_not_pos fun p => ?_
        exact (c.dfT (by simp only [X.add, x0]; omega)).2 hs
      omega
    have hcc : (tot s.th).cc = 0 := by have := q.ccoc; omega
    have k : Inv x0 { s with closeReq := false, openErr := 0, buf := [], recvd := [], taken := [] } := by
      refine h.frame rfl rfl rfl rfl rfl rfl rfl rfl rfl ?_
      generalize tot s.th = k at *
      generalize cur s = d at *
      clear h
      cases c; cases q
      leaf
    have nf : ∀ j, j ≠ s.nIod → (newIod { s with closeReq := false, openErr := 0, buf := [], recvd := [], taken := [] }).iods j = s.iods j :=
      fun j hj => if_neg hj
    have nn : (newIod { s with closeReq := false, openErr := 0, buf := [], recvd := [], taken := [] }).iods s.nIod = {} := if_pos rfl
    have key : ∀ r : OpRes, (s.slow = true ∨ r = .done) → Ok ((setupHandlers (newIod { s with closeReq := false, openErr := 0, buf := [], recvd := [], taken := [] }) ok).bind
        fun x => if x.2 = true then openSet x.1 r else closeIod x.1) := by
      intro r hr
      cases ok with
      | false =>
        simp only [setupHandlers, newIod, Bool.false_eq_true, if_false, Option.bind_some]
        obtain ⟨g, e3, g1, g2, g3⟩ := closeIod_ok (s := newIod { s with closeReq := false, openErr := 0, buf := [], recvd := [], taken := [] }) (i := s.nIod) rfl (by rw [nn])
          (.inr (by rw [nn]))
        have e3' := e3
        simp only [newIod] at e3'
        rw [e3']
        refine ⟨_, rfl, ?_⟩
        refine ⟨?_, ?_, ?_, k.hist.frame rfl rfl rfl rfl rfl⟩
        · rw [cur_none rfl]
          have c := k.core
          rw [cur_none (by exact hi)] at c
          dsimp only [St.setIod] at *
          clear h k e3 e3' nf nn
          generalize tot s.th = k at *
          cases c; cases q
          leaf
        · intro t ht
          have := h.lst t ht
          rw [hi] at this
          exact this
        · exact k.desc.fresh' hi (fun j hj => (g1 j hj).trans (nf j hj)) g2 (by rw [g3, nn]) rfl rfl
      | true =>
        simp only [setupHandlers, newIod, St.setIod, if_true, Option.bind_some]
        refine openSet_ok (s := { s with closeReq := false, openErr := 0, buf := [], recvd := [], taken := [] }) k hf hs hi hdc.1 hl hcc h1 h2 rfl rfl
          hr.symm (by simp) (by simp) ?_
        refine k.desc.fresh hi (fun j hj => ?_) (by simp) rfl rfl
        simp [hj]
    cases r with
    | err e => exact ⟨_, rfl, k⟩
    | done => exact key .done (.inr rfl)
    | prog => exact key .prog (by simpa using hr)
    | retry => exact key .retry (by simpa using hr)
  · rw [if_pos hs]; exact ⟨s, rfl, h⟩

/-! ## All steps -/

theorem cur_of_reg {s : St} {i : Nat} (h : Inv x0 s) (e : (s.iods i).reg = .active ∨ (s.iods i).reg = .clearing) : s.iod = some i := by
  by_cases hi : s.iod = some i
  · exact hi
  · have := h.desc.oth i hi
    rcases e with e | e
    · exact absurd e this.1
    · exact absurd e this.2

theorem fire_ok {s : St} {i : Nat} {pc : Pc} (h : Inv x0 s) (hr : (s.iods i).reg = .active)
    (hp : pc = .wr0 ∨ pc = .ex0 ∨ (pc = .rd0 ∧ (s.iods i).rd = true)) : Ok (some (s.push pc (some i))) := by
  have hi := cur_of_reg h (.inl hr)
  refine ⟨_, rfl, h.pushF (pc := pc) (hd := some i) rfl rfl rfl rfl { h.hist with } ?_ (.inr hi.symm) ?_⟩
  · rcases hp with rfl | rfl | ⟨rfl, _⟩ <;> rfl
  · have c := h.core
    have q := h.cnt
    rw [cur_some hi] at c ⊢
    simp only [St.push]
    clear h
    generalize tot s.th = k at *
    rcases hp with rfl | rfl | ⟨rfl, _⟩
    · cases c; cases q
      leaf
    · cases c; cases q
      leaf
    · cases c; cases q
      leaf

theorem fireClr_ok {s : St} {i : Nat} (h : Inv x0 s) (hr : (s.iods i).reg = .clearing) (hth : ∀ t ∈ s.th, t.h ≠ some i) :
    Ok (some ((s.setIod i { s.iods i with reg := .cleared }).push .cl0 none)) := by
  have hi := cur_of_reg h (.inr hr)
  have nh : (tot s.th).nh = 0 := nh_zero' (fun t ht => by
    rcases (h.lst t ht).2 with e | e
    · exact e
    · rw [hi] at e; exact absurd e (hth t ht))
  refine ⟨_, rfl, h.pushC (i := i) (pc := .cl0) (hd := none) hi ?_ rfl rfl rfl { h.hist with } rfl (.inl rfl) ?_⟩
  · exact ⟨fun j hj => if_neg hj, by simp [St.push, St.setIod]⟩
  · have c := h.core' hi
    have q := h.cnt
    have er : ((s.setIod i { s.iods i with reg := .cleared }).push .cl0 none).iods i = { s.iods i with reg := .cleared } := by
      simp [St.push, St.setIod]
    rw [er]
    simp only [St.push, St.setIod]
    clear h er
    generalize tot s.th = k at *
    cases c; cases q
    leaf

theorem fireRun_ok {s : St} (h : Inv x0 s) (hr : s.runQ = true) : Ok (some ({ s with runQ := false }.push .run0 none)) := by
  refine ⟨_, rfl, h.pushF (pc := .run0) (hd := none) rfl rfl rfl rfl { h.hist with } rfl (.inl rfl) ?_⟩
  have c := h.core
  have q := h.cnt
  simp only [St.push]
  clear h
  generalize tot s.th = k at *
  generalize cur s = d at *
  cases c; cases q
  leaf

theorem fireTm_ok {s : St} (h : Inv x0 s) (hr : s.tmRun = true) : Ok (some ({ s with tmRun := false }.push .tm0 none)) := by
  refine ⟨_, rfl, h.pushF (pc := .tm0) (hd := none) rfl rfl rfl rfl { h.hist with } rfl (.inl rfl) ?_⟩
  have c := h.core
  have q := h.cnt
  simp only [St.push]
  clear h
  generalize tot s.th = k at *
  generalize cur s = d at *
  cases c; cases q
  leaf

theorem go_ok {c : Cfg} {s : St} {t : Th} {a : Arg} (h : Inv (xOf t) s) (ok : t.ok) (hh : t.h = none ∨ t.h = s.iod)
    (h1 : a.ro ≠ .done) (h2 : a.ro ≠ .err 0) (h3 : a.cc = true → s.slow = false)
    (h4 : t.pc = .ex0 ∨ t.pc = .exOp → s.rdEn = true ∨ s.wrEn = true ∨ s.st = .inOpen ∨ s.st = .inOpenRetry)
    (h5 : t.pc = .exOp → a.oob = true → opening s.ev = false ∧ s.st ≠ .closed) : Ok (go c s t a) := by
  obtain ⟨pc, hd⟩ := t
  have some_ : ∀ p : hd.isSome = true, ∃ i, hd = some i ∧ s.iod = some i := by
    intro p
    obtain ⟨i, e⟩ := Option.isSome_iff_exists.1 p
    refine ⟨i, e, ?_⟩
    rcases hh with hh | hh
    · simp [e] at hh
    · rw [← hh]; exact e
  cases pc with
  | rd0 => obtain ⟨i, rfl, hi⟩ := some_ ok; exact incoming_ok h hi
  | rdIO => obtain ⟨i, rfl, hi⟩ := some_ ok; exact gotData_ok h hi
  | rdCb e => obtain ⟨i, rfl, hi⟩ := some_ ok; exact readRet_ok h hi
  | wr0 =>
    obtain ⟨i, rfl, hi⟩ := some_ ok
    simp only [go, Option.bind_eq_bind]
    rw [h.lockRef (by simp [hi]), Option.bind_some]
    obtain ⟨s1, e1, hs, k⟩ := h.ref (h.refPos (by simp [hi]))
    rw [e1, Option.bind_some]
    exact writeReady_ok (r := 1) (hd := some i) k (by rw [hs]; exact hi) (.inl rfl) (.inl ⟨rfl, rfl⟩)
  | wrCb i k =>
    obtain ⟨rfl, hk⟩ := ok
    obtain ⟨j, e, hi⟩ := some_ rfl
    cases e
    exact writeRet_ok h hi hk
  | ex0 => obtain ⟨i, rfl, hi⟩ := some_ ok; exact except_ok h hi (h4 (.inl rfl))
  | exOp => obtain ⟨i, rfl, hi⟩ := some_ ok; exact exRet_ok h hi (h4 (.inr rfl)) (h5 rfl)
  | cl0 => obtain rfl : hd = none := ok; exact cleared_ok h h1 h2 h3
  | run0 => obtain rfl : hd = none := ok; exact run0_ok h rfl
  | dfRd => obtain rfl : hd = none := ok; exact dfRet_ok h
  | tm0 => obtain rfl : hd = none := ok; exact timeout_ok h h3
  | opCb e k => exact openRet_ok h ok
  | clCb => obtain rfl : hd = none := ok; exact closeRet_ok h

theorem exec_ok {c : Cfg} {s : St} {a : Act} (h : Inv x0 s) (hc : can s a = true) (hf : fair s a = true) : Ok (exec c s a) := by
  cases a with
  | open_ r b =>
    simp only [can, Bool.not_eq_true'] at hc
    simp only [fair, Bool.and_eq_true, Bool.not_eq_true', Bool.or_eq_true, decide_eq_true_eq, ne_eq] at hf
    obtain ⟨⟨⟨⟨f1, f2⟩, f3⟩, f4⟩, f5⟩ := hf
    exact open_ok h hc f1 (oc_zero f2) f3 f4 (by simpa using f5)
  | close => simp only [can, Bool.not_eq_true'] at hc; exact close_ok h hc
  | setRead b =>
    simp only [can, Bool.not_eq_true'] at hc
    simp only [fair, Bool.or_eq_true, Bool.and_eq_true, Bool.not_eq_true'] at hf
    exact setRead_ok h hc (fun e => by simpa [e] using hf)
  | setWrite b =>
    simp only [can, Bool.not_eq_true'] at hc
    simp only [fair, Bool.or_eq_true, Bool.not_eq_true'] at hf
    exact setWrite_ok h hc (fun e => by simpa [e] using hf)
  | free =>
    simp only [can, Bool.not_eq_true'] at hc
    simp only [fair, Bool.not_eq_true'] at hf
    exact free_ok h hc hf
  | fireRd i => simp only [can, Bool.and_eq_true, decide_eq_true_eq] at hc; exact fire_ok h hc.1 (.inr (.inr ⟨rfl, hc.2⟩))
  | fireWr i => simp only [can, Bool.and_eq_true, decide_eq_true_eq] at hc; exact fire_ok h hc.1 (.inl rfl)
  | fireEx i => simp only [can, Bool.and_eq_true, decide_eq_true_eq] at hc; exact fire_ok h hc.1 (.inr (.inl rfl))
  | fireClr i =>
    simp only [can, Bool.and_eq_true, decide_eq_true_eq, List.all_eq_true] at hc
    exact fireClr_ok h hc.1 (fun t ht => by simpa using hc.2 t ht)
  | fireRun => exact fireRun_ok h hc
  | fireTm => exact fireTm_ok h hc
  | go k a =>
    simp only [can, decide_eq_true_eq] at hc
    have e : s.th[k]? = some s.th[k] := by simp [hc]
    generalize s.th[k] = t at e
    obtain ⟨i1, i2, i3⟩ := h.take e
    simp only [fair, e, Bool.and_eq_true, Bool.or_eq_true, Bool.not_eq_true', decide_eq_true_eq, ne_eq] at hf
    obtain ⟨⟨⟨f1, f2⟩, f3⟩, f4, f5⟩ := hf
    simp only [exec, e]
    refine go_ok i1 i2 i3 (by simpa using f1) (by simpa using f2) (fun e => by simpa [e] using f3) ?_ ?_
    · intro e
      rcases e with e | e <;> simp [e] at f4 <;> simpa [or_assoc] using f4
    · intro e1 e2
      simpa [e1, e2] using f5

theorem inv_init (b : Bool) : Inv x0 (init b) := by
  refine ⟨?_, by intro t ht; simp [init] at ht, ?_, ?_⟩
  · constructor <;> simp [init, x0, X.add, tot, cur, opn, opening, closing]
  · constructor <;> simp [init]
  · constructor <;> simp [init, opening, closing, ordered]

theorem inv_initOpen (b : Bool) : Inv x0 (initOpen b) := by
  refine ⟨?_, by intro t ht; simp [initOpen] at ht, ?_, ?_⟩
  · constructor <;> simp [initOpen, x0, X.add, tot, cur, opn, opening, closing]
  · constructor
    · intro j hj
      have : j ≠ 0 := by rintro rfl; exact hj rfl
      simp [initOpen, this]
    · intro j hj hj'
      have hj : j < 1 := hj
      have : j = 0 := by omega
      subst this; exact absurd rfl hj'
    · intro j hj
      have : 0 = j := by simpa [initOpen] using hj
      subst this; simp [initOpen]
  · constructor <;> simp [initOpen, opening, closing, ordered]

theorem Fair.inv {c : Cfg} {s : St} (h : Fair c s) : Inv x0 s := by
  induction h with
  | init b => exact inv_init b
  | initOpen b => exact inv_initOpen b
  | step _ hc hf e ih =>
    obtain ⟨s', e', k⟩ := exec_ok ih hc hf
    rw [e] at e'; cases e'; exact k

end Gensio.LlFd
