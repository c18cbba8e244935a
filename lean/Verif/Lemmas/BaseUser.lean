import Verif.Lemmas.BaseSteps

/-!
# The calls of the user and of the filter keep the invariant, and every step does
-/

namespace Gensio.Base

theorem userJ {s : St} (h : T {} s) (hc : C {} s) (hi : H {} s) (hu : s.uf = false) : J {} s :=
  ⟨h, by simp [Hold, hu]; omega, hc, hi⟩

theorem J.inv {s : St} (h : J {} s) : Inv s := .inl ⟨h.t, h.c, h.hi⟩

/-! ## Opening -/

theorem openFilter_ok {s : St} {a : Ans} (k : Nat) (h : J { owe := 1 } { s with st := .inFilterOpen }) (hcl : a.clOk = true) :
    Ok (openFilter a k s) (fun p => J { owe := 1 } p.1 ∧ (p.2 ≠ 0 → p.1.st = .inFilterOpen ∨ p.1.st = .inLlIoErr)) := by
  unfold openFilter
  refine (tryConnect_ok k h hcl rfl).bind (fun p h1 => ?_)
  obtain ⟨s1, err⟩ := p
  obtain ⟨j1, hst, he⟩ := h1
  simp only at j1 hst he ⊢
  split
  · rename_i e
    have hs1 := he e
    refine (connected_ok j1 (.inl hs1) (fun h => by rw [hs1] at h; cases h) (fun h _ => (j1.c.owe h hs1).1)).bind
      (fun s2 h2 => ⟨_, rfl, h2.1, by simp⟩)
  · split
    · exact ⟨_, rfl, j1, by simp⟩
    · exact ⟨_, rfl, j1, fun _ => hst⟩

theorem accept_ok {s : St} (h : J { owe := 1 } s) :
    J {} { s with ref := s.ref + 1, tr := .openOk (s.nid - 1) :: s.tr } := by
  have ho := h.hi.owe (by simp)
  have hb := h.hi.bo _ ho.1
  have hst : s.st ≠ .closed := by
    rcases ho.2.2 with e | e | e | e <;> simp [e]
  have hod := h.hi.od hst _ ho.1
  have he := h.t.eq
  have hh := h.h
  have hc := h.c
  have hi := h.hi
  refine ⟨⟨h.t.live, by simp, by simp at he ⊢; omega, h.t.tm, h.t.dtm⟩, by simp [Hold] at hh ⊢; omega, ?_, ?_⟩
  · cgo hc
  · obtain ⟨g_below, g_bo, g_bc, g_og, g_cg, g_q, g_od, g_owe, g_cd, g_po, g_pc, g_lc⟩ := hi
    refine ⟨?_, g_bo, g_bc, ⟨ho.2.1.1, hod.2, ho.2.1.2, g_og⟩, g_cg, g_q, ?_, by simp, ?_, ?_, ?_, by simp [lastClosed]⟩
    · intro e he
      rcases List.mem_cons.1 he with rfl | he
      · exact hb
      · exact g_below e he
    · intro _ i hi
      have hi : s.openDone = some i := hi
      rw [ho.1] at hi
      cases hi
      exact ⟨.inl (by simp), fun e h => by simp at h; exact hod.2 e h⟩
    · intro h1 i hi
      have := g_cd h1 i hi
      simp [this]
    · intro i hi
      simp [pendOpen] at hi
      subst hi
      refine ⟨ho.1, ?_⟩
      rcases ho.2.2 with e | e | e | e <;> simp [e]
    · intro i hi
      exact g_pc i hi

theorem openEnd_ok {s : St} (h : J { owe := 1 } s) : Ok (openEnd 0 s) (J {}) := by
  unfold openEnd
  have := h.t.pos
  rw [if_neg (by simp), ref, if_neg (by omega)]
  exact ⟨_, rfl, accept_ok h⟩

/-- The open fails while the lower layer is not given up. -/
theorem refuse_ok {s : St} (h : J { owe := 1 } s) (hs : s.st = .inFilterOpen) :
    J {} { s with st := .closed, ll := .closed } := by
  have he := h.t.eq
  have hh := h.h
  have hc := h.c
  have hi := h.hi
  have hb : bst s.st = 1 := by rw [hs]; rfl
  refine ⟨{ h.t with eq := ?_ }, ?_, ?_, ?_⟩
  · simp [hb, show bst .closed = 0 from rfl] at he ⊢
    omega
  · simp [Hold, hb, show bst .closed = 0 from rfl] at hh ⊢
    omega
  · cgo hc
  · hgo hi

/-- The members set by an open, from the closed state. -/
theorem openInit_c {s : St} (hc : C {} s) (hu : s.uf = false) (hst : s.st = .closed) (hpre : cnt X.pre s.th = 0) (x : BS)
    (hx : x = .inLlOpen ∨ x = .inFilterOpen) (l : LS) (hl : (x = .inLlOpen → l = .opening) ∧ (x = .inFilterOpen → l = .opn))
    (cw cb c1 c2 : Bool) (hcw : x = .inLlOpen → cw = false) (hc2 : c2 = false) (hcb : x = .inLlOpen → cb = true) :
    C { owe := 1 } { openInit s with st := x, ll := l, llCb := cb, canWrite := cw, closeReq := c1, wantClose := c2 } := by
  have h1 := cnt_ll s.th
  unfold openInit
  cgo hc

theorem openInit_h {s : St} (hi : H {} s) (hst : s.st = .closed) (hpre : cnt X.pre s.th = 0) (hd : s.dOpen = false) (x : BS)
    (hx : x = .inLlOpen ∨ x = .inFilterOpen) : H { owe := 1 } { openInit s with st := x } := by
  have hb : TEv.openOk s.nid ∉ s.tr := fun h => by have := hi.below _ h; simp [Below] at this
  have hb2 : ∀ e, TEv.openCb s.nid e ∉ s.tr := fun e h => by have := hi.below _ h; simp [Below] at this
  have hbl : ∀ e ∈ s.tr, Below (s.nid + 1) e := by
    intro e he
    have := hi.below e he
    cases e <;> simp [Below] at this ⊢ <;> omega
  have hpo : pendOpen s.tr = none := by
    cases e : pendOpen s.tr
    · rfl
    · have := (hi.po _ e).2
      simp [hst, hd] at this
  unfold openInit
  hgo hi

theorem openInit_t {s : St} (h : T {} s) (hu : s.uf = false) (hst : s.st = .closed) (x : BS)
    (hx : x = .inLlOpen ∨ x = .inFilterOpen) : T { owe := 1 } { openInit s with st := x } ∧
      Hold { owe := 1 } { openInit s with st := x } := by
  have he := h.eq
  have hb : bst x = 1 := by rcases hx with rfl | rfl <;> rfl
  refine ⟨⟨h.live, h.pos, ?_, h.tm, h.dtm⟩, ?_⟩
  · simp [openInit, hb, hst, show bst .closed = 0 from rfl] at he ⊢
    omega
  · simp [Hold, openInit, hb, hu]
    omega

theorem openInit_j {s : St} (h : T {} s) (hc : C {} s) (hi : H {} s) (hu : s.uf = false) (hst : s.st = .closed)
    (hpre : cnt X.pre s.th = 0) (x : BS) (hx : x = .inLlOpen ∨ x = .inFilterOpen) (l : LS)
    (hl : (x = .inLlOpen → l = .opening) ∧ (x = .inFilterOpen → l = .opn)) (cw cb c1 c2 : Bool)
    (hcw : x = .inLlOpen → cw = false) (hc2 : c2 = false) (hcb : x = .inLlOpen → cb = true) :
    J { owe := 1 } { openInit s with st := x, ll := l, llCb := cb, canWrite := cw, closeReq := c1, wantClose := c2 } := by
  have hd : s.dOpen = false := by
    cases e : s.dOpen
    · rfl
    · have := (hc.dop e).2.2.1
      exact absurd hst this
  obtain ⟨t1, h1⟩ := openInit_t h hu hst x hx
  exact ⟨{ t1 with }, h1, openInit_c hc hu hst hpre x hx l hl cw cb c1 c2 hcw hc2 hcb, { openInit_h hi hst hpre hd x hx with }⟩

theorem open_ok {s : St} {a : Ans} (hcl : a.clOk = true) (h : T {} s) (hc : C {} s) (hi : H {} s) (hu : s.uf = false)
    (hpre : cnt X.pre s.th = 0) : Ok (open_ a s) (fun s' => (s'.st = .closed → s'.ll = .closed) → Inv s') := by
  unfold open_
  split
  · exact ⟨_, rfl, fun _ => .inl ⟨h, hc, hi⟩⟩
  · rename_i hst
    have hst : s.st = .closed := by simpa using hst
    split
    · exact ⟨_, rfl, fun _ => .inl ⟨h, hc, hi⟩⟩
    · dsimp only
      split
      · have j := openInit_j h hc hi hu hst hpre .inFilterOpen (.inr rfl) .opn (by simp) false false false false (by simp) rfl (by simp)
        refine (openFilter_ok 2 j hcl).bind (fun p h1 => ?_)
        obtain ⟨s1, err⟩ := p
        obtain ⟨j1, hs1⟩ := h1
        simp only at j1 hs1 ⊢
        by_cases e : err = 0
        · subst e
          exact (openEnd_ok j1).imp (fun s2 h2 _ => h2.inv)
        · unfold openEnd
          rw [if_pos e]
          refine ⟨_, rfl, fun hp => ?_⟩
          exfalso
          have hp := hp rfl
          rcases hs1 e with e2 | e2
          · have := j1.c.ll3 (.inl e2)
            simp [this] at hp
          · have := j1.c.ll4 e2
            simp [this] at hp
      · split
        · have j := openInit_j h hc hi hu hst hpre .inLlOpen (.inl rfl) .opening (by simp) false true false false (by simp) rfl (by simp)
          exact (openEnd_ok j).imp (fun s2 h2 _ => h2.inv)
        · rename_i e1 e2
          unfold openEnd
          rw [if_pos e1]
          have j := openInit_j h hc hi hu hst hpre .inFilterOpen (.inr rfl) .opn (by simp) false s.llCb false false (by simp) rfl (by simp)
          have := (refuse_ok j rfl).inv
          have hl := hc.ll1 hst
          refine ⟨_, rfl, fun _ => ?_⟩
          simp only [openInit, hl] at this ⊢
          exact this

theorem openNochild_ok {s : St} {a : Ans} (hcl : a.clOk = true) (h : T {} s) (hc : C {} s) (hi : H {} s) (hu : s.uf = false)
    (hpre : cnt X.pre s.th = 0) : Ok (openNochild a s) (fun s' => (s'.st = .closed → s'.ll = .closed) → Inv s') := by
  unfold openNochild
  split
  · exact ⟨_, rfl, fun _ => .inl ⟨h, hc, hi⟩⟩
  · rename_i hst
    have hst : s.st = .closed := by simpa using hst
    split
    · exact ⟨_, rfl, fun _ => .inl ⟨h, hc, hi⟩⟩
    · have j := openInit_j h hc hi hu hst hpre .inFilterOpen (.inr rfl) .opn (by simp) s.canWrite false s.closeReq s.wantClose
        (by simp) hc.want (by simp)
      refine (openFilter_ok (s := { openInit s with ll := .opn, llCb := false }) 2 j hcl).bind (fun p h1 => ?_)
      obtain ⟨s1, err⟩ := p
      obtain ⟨j1, hs1⟩ := h1
      simp only at j1 hs1 ⊢
      by_cases e : err = 0
      · subst e
        simp only [ne_eq, not_true_eq_false, decide_false, Bool.false_and, Bool.false_eq_true, if_false]
        refine (openEnd_ok j1).bind (fun s2 h2 => ?_)
        exact (setLlEnables_ok 20 h2).imp (fun s3 h3 _ => h3.1.inv)
      · unfold openEnd
        rw [if_pos e]
        simp only [Option.bind_eq_bind, Option.bind_some]
        have hn : ∀ s : St, s.st = .closed → setLlEnables a 20 s = some s := by
          intro s h
          simp [setLlEnables, h]
        rw [hn _ rfl]
        refine ⟨_, rfl, fun hp => ?_⟩
        have hp := hp rfl
        rcases hs1 e with e2 | e2
        · have hl := j1.c.ll3 (.inl e2)
          rw [if_pos (by simp [hl, e])]
          exact (refuse_ok j1 e2).inv
        · have := j1.c.ll4 e2
          simp [this] at hp

theorem serverStart_ok {s : St} {a : Ans} (h : T {} s) (hc : C {} s) (hi : H {} s) (hu : s.uf = false)
    (hn : s.nid = 0) (hpre : cnt X.pre s.th = 0) : Ok (serverStart a s) Inv := by
  unfold serverStart
  have hst := (hc.n0 hn).1
  rw [if_neg (by simp [hst])]
  have hd : s.dOpen = false := by
    cases e : s.dOpen
    · rfl
    · exact absurd hst (hc.dop e).2.2.1
  have j : J { owe := 1 } { s with openDone := some s.nid, nid := s.nid + 1, ll := .opn, llCb := false, st := .inFilterOpen } := by
    obtain ⟨t1, h1⟩ := openInit_t h hu hst .inFilterOpen (.inr rfl)
    have hi2 := openInit_h hi hst hpre hd .inFilterOpen (.inr rfl)
    unfold openInit at hi2
    refine ⟨{ t1 with }, h1, ?_, ?_⟩
    · have := hc.n0 hn
      have h1 := cnt_ll s.th
      cgo hc
    · hgo hi2
  dsimp only
  refine (tryConnect_nw 2 j rfl (hc.n0 hn).2.2.2).bind (fun p h1 => ?_)
  obtain ⟨s1, err⟩ := p
  obtain ⟨j1, f1⟩ := h1
  have hw := f1.nw (hc.n0 hn).2.2.2
  have hs1 := f1.st
  simp only at j1 hw hs1 ⊢
  split
  · have hn : pushCheck a 20 s1 = some (s1, 0) := by simp [pushCheck, push, hw]
    rw [hn]
    simp only [Option.bind_eq_bind, Option.bind_some, if_true]
    have : Ok (doIf (decide (err = 0) && decide (0 = 0)) (fun s => sched { s with st := .opn, dOpen := true }) s1)
        (J { owe := 1 }) := by
      refine Ok.doIf j1 (fun _ => ?_)
      exact (connected_ok j1 (.inl hs1) (by simp [hs1]) (fun h e => (j1.c.owe h e).1)).imp (fun _ h => h.1)
    refine this.bind (fun s3 h3 => ?_)
    have := h3.t.pos
    rw [ref, if_neg (by omega)]
    simp only [Option.bind_some]
    exact (setLlEnables_ok 80 (accept_ok h3)).imp (fun s4 h4 => h4.1.inv)
  · have hl := j1.c.ll3 (.inl hs1)
    have := (refuse_ok j1 hs1).inv
    refine ⟨_, rfl, ?_⟩
    simp only [hl, if_true]
    exact this

/-! ## Closing -/

theorem startDrain_ok {w : X} {s : St} (h : T w s) (hd : s.dtm.inHeap = false) :
    Ok (startDrain s) (fun s' => T w s' ∧ ∃ r l t, s' = { s with ref := r, leak := l, dtm := t }) := by
  unfold startDrain
  cases e : s.dtm.start with
  | none => simp [Tm.start, hd] at e
  | some t =>
    obtain ⟨h1, h2⟩ := h.dtm.start e
    have hp := h.pos
    have he := h.eq
    dsimp only
    rw [ref, if_neg (by simp; omega)]
    refine ⟨_, rfl, { live := h.live, pos := by simp, eq := ?_, tm := h.tm, dtm := h1 }, _, _, _, rfl⟩
    simp only [h2]
    cases s.dtm.stopped <;> simp <;> omega

/-- `basen_i_close`, after the caller has set what it sets. -/
theorem iClose_ok {s : St} {a : Ans} (hcl : a.clOk = true) {r : Nat} {u c : Bool} {t : List TEv} {n : Nat} {cd : Option Nat}
    (hc : C {} s) (hst : s.st = .inLlOpen ∨ s.st = .inFilterOpen ∨ s.st = .opn)
    (hT : T { ref := r } { s with closeReq := c, uf := u, tr := t, nid := n })
    (hH : ∀ x, x = .waitDrain ∨ x = .inFilterClose ∨ x = .inLlClose →
      H { ref := r } { s with closeReq := c, uf := u, tr := t, nid := n, closeDone := cd, st := x })
    (hd : s.st = .opn → s.dtm.inHeap = false) (hn : s.nid ≤ n) :
    Ok (iClose a cd { s with closeReq := c, uf := u, tr := t, nid := n }) (J { ref := r }) := by
  have hb : bst s.st = 1 := by rcases hst with e | e | e <;> simp [bst, e]
  have he := hT.eq
  simp only [hb] at he
  have hT' : ∀ x, x = .waitDrain ∨ x = .inFilterClose ∨ x = .inLlClose →
      T { ref := r } { s with closeReq := c, uf := u, tr := t, nid := n, closeDone := cd, readEn := false, xmitEn := false, openErr := geLocalclosed, st := x } := by
    intro x hx
    have hb : bst x = 1 := by rcases hx with e | e | e <;> simp [bst, e]
    exact { hT with eq := by simp only [hb]; exact he }
  have hpre : cnt X.pre s.th = 0 := by
    have := hc.pre2
    rcases hst with e | e | e <;> simp [e] at this <;> omega
  have hn0 : s.nid ≠ 0 := by
    intro e
    have := (hc.n0 e).1
    rcases hst with e | e | e <;> simp [e] at this
  have hg : geLocalclosed ≠ 0 := by decide
  unfold iClose
  refine Ok.bind (P := J { ref := r }) ?_ (fun s1 h1 => (setLlEnables_ok 15 h1).imp (fun _ h => h.1))
  unfold iCloseSt
  split
  · rename_i e
    simp only [Bool.or_eq_true, decide_eq_true_eq] at e
    rw [llCloseOrDefer_eq hcl]
    refine ⟨_, rfl, { hT' .inLlClose (by simp) with }, ?_, ?_, { hH .inLlClose (by simp) with }⟩
    · simp [Hold, bst]; omega
    · cgo hc
  · rename_i e
    simp only [Bool.or_eq_true, decide_eq_true_eq, not_or] at e
    have hst : s.st = .opn := by
      rcases hst with h | h | h
      · exact absurd h e.1
      · exact absurd h e.2
      · exact h
    split
    · have j : J { ref := r } { s with closeReq := c, uf := u, tr := t, nid := n, closeDone := cd, readEn := false, xmitEn := false, openErr := geLocalclosed, st := .waitDrain } := by
        refine ⟨hT' .waitDrain (by simp), ?_, ?_, { hH .waitDrain (by simp) with }⟩
        · simp [Hold, bst]; omega
        · cgo hc
      refine Ok.doIf j (fun _ => ?_)
      refine (startDrain_ok j.t (hd hst)).imp (fun s1 h1 => ?_)
      obtain ⟨t1, r2, l, t2, rfl⟩ := h1
      exact ⟨t1, j.h, { j.c with }, { j.hi with }⟩
    · refine tryClose_ok _ ?_ hcl rfl
      refine ⟨hT' .inFilterClose (by simp), ?_, ?_, { hH .inFilterClose (by simp) with }⟩
      · simp [Hold, bst]; omega
      · cgo hc

theorem noClose {s : St} (hc : C {} s) (hi : H {} s) (hst : s.st = .inLlOpen ∨ s.st = .inFilterOpen ∨ s.st = .opn ∨
    s.st = .inLlIoErr ∨ (s.st = .ioErr ∧ s.closeReq = false ∧ s.uf = false)) : pendClose s.tr = none := by
  cases e : pendClose s.tr
  · rfl
  · have h1 := (hi.pc _ e).2
    have h2 := hc.pre2
    have h3 := hc.creq
    unfold Closing at h1
    grind

theorem H.closeAcc {s : St} {x : BS} {d : Bool} (hi : H {} s) (hpc : pendClose s.tr = none) (hst : s.st ≠ .closed)
    (hx : x = .waitDrain ∨ x = .inFilterClose ∨ x = .inLlClose ∨ (x = .ioErr ∧ d = true)) :
    H {} { s with tr := .closeOk s.nid :: s.tr, nid := s.nid + 1, closeDone := some s.nid, st := x, dClose := d } := by
  have hb : TEv.closeOk s.nid ∉ s.tr := fun h => by have := hi.below _ h; simp [Below] at this
  have hb2 : TEv.closeCb s.nid ∉ s.tr := fun h => by have := hi.below _ h; simp [Below] at this
  obtain ⟨g_below, g_bo, g_bc, g_og, g_cg, g_q, g_od, g_owe, g_cd, g_po, g_pc, g_lc⟩ := hi
  refine ⟨?_, ?_, ?_, g_og, ⟨hb, hb2, hpc, g_cg⟩, g_q, ?_, by simp, ?_, by simp [pendOpen], ?_, ?_⟩
  · intro e he
    rcases List.mem_cons.1 he with rfl | he
    · simp [Below]
    · have := g_below e he
      cases e <;> simp [Below] at this ⊢ <;> omega
  · intro i hi
    have := g_bo i hi
    simp only
    omega
  · intro i hi
    simp at hi
    subst hi
    simp
  · intro _ i hi
    simpa using g_od hst i hi
  · intro _ i hi
    simp at hi
    subst hi
    simp [hb2]
  · intro i hi
    simp [pendClose] at hi
    subst hi
    refine ⟨rfl, ?_⟩
    unfold Closing
    simp only
    rcases hx with h | h | h | h <;> simp [h]
  · intro h
    have := g_lc h
    simp at this
    exact absurd this hst

theorem close_ok {s : St} {a : Ans} (hcl : a.clOk = true) (h : T {} s) (hc : C {} s) (hi : H {} s) (hu : s.uf = false)
    (hd : s.st = .opn → s.dtm.inHeap = false) : Ok (close a s) Inv := by
  unfold close
  split
  · exact ⟨_, rfl, .inl ⟨h, hc, hi⟩⟩
  · rename_i hcr
    have hcr : s.closeReq = false := by simpa using hcr
    dsimp only
    split
    · rename_i e
      simp only [Bool.or_eq_true, decide_eq_true_eq] at e
      have hst : s.st = .inLlOpen ∨ s.st = .inFilterOpen ∨ s.st = .opn := by
        rcases e with (e | e) | e <;> simp [e]
      have hst2 : s.st ≠ .closed := by rcases hst with e | e | e <;> simp [e]
      refine (iClose_ok (s := s) (r := 0) (u := s.uf) (c := true) (t := .closeOk s.nid :: s.tr) (n := s.nid + 1) hcl hc hst { h with } (fun x hx => ?_) hd
        (by omega)).imp (fun _ h => h.inv)
      have := hi.closeAcc (x := x) (d := s.dClose) (noClose hc hi (by grind)) hst2 (by grind)
      exact { this with }
    · split
      · rename_i e
        refine ⟨_, rfl, .inl ⟨?_, ?_, ?_⟩⟩
        · have := h.eq
          simp only [e] at this
          exact { h with eq := this }
        · unfold closeAcc
          cgo hc
        · have := hi.closeAcc (x := .inLlClose) (d := s.dClose) (noClose hc hi (by simp [e])) (by rw [e]; decide) (by simp)
          exact { this with }
      · split
        · rename_i e
          refine (sched_ok (w := {}) (s := { closeAcc { s with closeReq := true } with closeDone := some s.nid, dClose := true }) { h with }).imp (fun s1 h1 => ?_)
          obtain ⟨t1, r, rfl⟩ := h1
          refine .inl ⟨t1, ?_, ?_⟩
          · unfold closeAcc
            cgo hc
          · have := hi.closeAcc (x := .ioErr) (d := true) (noClose hc hi (by simp [e, hu, hcr])) (by rw [e]; decide) (by simp)
            unfold closeAcc
            hgo this
        · refine ⟨_, rfl, .inl ⟨{ h with }, ?_, { hi with }⟩⟩
          cgo hc

theorem H.free {s : St} {r : Nat} (hi : H {} s) (hst : s.st ≠ .closed) (x : BS) (hx : x ≠ .closed) (d : Bool) :
    H { ref := r } { s with tr := .free :: s.tr, closeDone := none, st := x, dClose := d } := by
  obtain ⟨g_below, g_bo, g_bc, g_og, g_cg, g_q, g_od, g_owe, g_cd, g_po, g_pc, g_lc⟩ := hi
  refine ⟨?_, g_bo, by simp, g_og, g_cg, g_q, ?_, by simp, by simp, by simp [pendOpen], by simp [pendClose], ?_⟩
  · intro e he
    rcases List.mem_cons.1 he with rfl | he
    · trivial
    · exact g_below e he
  · intro _ i hi
    simpa using g_od hst i hi
  · intro h
    have := g_lc h
    simp at this
    exact absurd this hst

theorem free_ok {s : St} {a : Ans} (hcl : a.clOk = true) (h : T {} s) (hc : C {} s) (hi : H {} s) (hu : s.uf = false)
    (hd : s.st = .opn → s.dtm.inHeap = false) : Ok (free a s) Inv := by
  unfold free
  have hT : T { ref := 1 } { s with uf := true, tr := .free :: s.tr } := by
    have := h.eq
    exact { h with eq := by simp [hu] at this ⊢; omega }
  refine Ok.bind (P := J0 { ref := 1 }) ?_ (fun s1 h1 => derefUnlock_fin h1)
  have hic : s.st = .inLlOpen ∨ s.st = .inFilterOpen ∨ s.st = .opn →
      Ok (iClose a none { s with uf := true, tr := .free :: s.tr }) (J0 { ref := 1 }) := by
    intro hst
    have hst2 : s.st ≠ .closed := by rcases hst with e | e | e <;> simp [e]
    refine (iClose_ok (s := s) (r := 1) (u := true) (c := s.closeReq) (t := .free :: s.tr) (n := s.nid) hcl hc hst
      { hT with } (fun x hx => ?_) hd (by omega)).imp (fun _ h => h.j0)
    have := hi.free (r := 1) hst2 x (by rcases hx with rfl | rfl | rfl <;> decide) s.dClose
    exact { this with }
  have hot : s.st = .waitDrain ∨ s.st = .inFilterClose ∨ s.st = .inLlClose →
      J0 { ref := 1 } { s with uf := true, tr := .free :: s.tr, closeDone := none } := by
    intro hst
    have hst2 : s.st ≠ .closed := by rcases hst with e | e | e <;> simp [e]
    have := hi.free (r := 1) hst2 s.st hst2 s.dClose
    refine ⟨{ hT with }, ?_, { this with }⟩
    cgo hc
  unfold freeSt
  dsimp only
  split
  · rename_i e
    refine ⟨_, rfl, hT, ?_, ?_⟩
    · cgo hc
    · obtain ⟨g_below, g_bo, g_bc, g_og, g_cg, g_q, g_od, g_owe, g_cd, g_po, g_pc, g_lc⟩ := hi
      refine ⟨?_, g_bo, g_bc, g_og, g_cg, g_q, ?_, by simp, ?_, by simp [pendOpen], by simp [pendClose], g_lc⟩
      · intro e he
        rcases List.mem_cons.1 he with rfl | he
        · trivial
        · exact g_below e he
      · intro h
        exact absurd e h
      · intro h1 i h2
        simpa using g_cd h1 i h2
  · exact hic (.inl (by assumption))
  · exact hic (.inr (.inl (by assumption)))
  · exact hic (.inr (.inr (by assumption)))
  · rename_i e
    refine ⟨_, rfl, ?_, ?_, ?_⟩
    · have := hT.eq
      simp only [e] at this
      exact { hT with eq := this }
    · cgo hc
    · have := hi.free (r := 1) (by rw [e]; decide) .inLlClose (by decide) s.dClose
      exact { this with }
  · rename_i e
    refine (sched_ok (w := { ref := 1 }) (s := { s with uf := true, tr := .free :: s.tr, closeDone := none, dClose := true }) { hT with }).imp (fun s1 h1 => ?_)
    obtain ⟨t1, r, rfl⟩ := h1
    refine ⟨t1, ?_, ?_⟩
    · cgo hc
    · have := hi.free (r := 1) (by rw [e]; decide) .ioErr (by decide) true
      hgo this
  · refine ⟨_, rfl, hot ?_⟩
    cases e : s.st <;> simp_all

/-! ## The other calls -/

theorem write_ok {s : St} {a : Ans} (hcl : a.clOk = true) (h : J {} s) : Ok (write a s) Inv := by
  unfold write
  refine Ok.bind (P := J {}) ?_ (fun s1 h1 => (setLlEnables_ok 6 h1).imp (fun _ h => h.1.inv))
  refine Ok.doIf h (fun e => ?_)
  simp only [Bool.and_eq_true, decide_eq_true_eq] at e
  unfold writeDo
  refine (ulWrite_ok (w := {}) 0 (s := { s with inWrite := s.inWrite + 1 }) { h.t with } h.h).bind (fun p hp => ?_)
  obtain ⟨s1, err⟩ := p
  obtain ⟨t1, ⟨r, l, t, p, c, e1⟩, cw⟩ := hp
  simp only at t1 cw e1 ⊢
  subst e1
  have j : J {} { s with ref := r, leak := l, tm := t, tsp := p, canWrite := c, inWrite := s.inWrite + 1 - 1 } := by
    refine ⟨{ t1 with }, h.h, ?_, { h.hi with }⟩
    have hc := h.c
    cgo hc
  refine Ok.bind (P := J {}) ?_ (fun s2 h2 => ?_)
  · refine Ok.doIf j (fun he => ?_)
    refine (handleIoerr_ok 4 j hcl (by simpa using he) (fun _ => ?_)).imp (fun _ h => h.1)
    simp [e.1]
  · refine Ok.doIf h2 (fun he => ?_)
    simp [h2.c.want] at he

theorem setRead_ok {s : St} {a : Ans} (en : Bool) (h : J {} s) : Ok (setRead a en s) Inv := by
  unfold setRead
  split
  · exact ⟨_, rfl, h.inv⟩
  · split
    · exact ⟨_, rfl, h.inv⟩
    · have h1 : J {} { s with readEn := en } := ⟨{ h.t with }, h.h, { h.c with }, { h.hi with }⟩
      have h2 : J {} { s with readEn := en, dRead := true } := ⟨{ h.t with }, h.h, { h.c with }, { h.hi with }⟩
      dsimp only
      split
      · exact ⟨_, rfl, h2.inv⟩
      · split
        · rename_i e
          simp only [Bool.and_eq_true, Bool.or_eq_true, decide_eq_true_eq] at e
          refine (schedSt_ok h2 ?_ rfl).imp (fun _ h => h.inv)
          rcases e.2 with (e | e) | e <;> simp [e]
        · exact (setLlEnables_ok 1 h1).imp (fun _ h => h.1.inv)

theorem setWrite_ok {s : St} {a : Ans} (en : Bool) (h : J {} s) : Ok (setWrite a en s) Inv := by
  unfold setWrite
  split
  · exact ⟨_, rfl, h.inv⟩
  · split
    · exact ⟨_, rfl, h.inv⟩
    · rename_i e
      have h1 : J {} { s with xmitEn := en } := ⟨{ h.t with }, h.h, { h.c with }, { h.hi with }⟩
      have h2 : J {} { s with xmitEn := en, dWrite := true } := ⟨{ h.t with }, h.h, { h.c with }, { h.hi with }⟩
      dsimp only
      split
      · simp only [writeCbState, Bool.not_eq_true', Bool.not_eq_false, Bool.or_eq_true, decide_eq_true_eq] at e
        refine (schedSt_ok h2 ?_ rfl).imp (fun _ h => h.inv)
        rcases e with (e | e) | e <;> simp [e]
      · exact ⟨_, rfl, h1.inv⟩

end Gensio.Base
