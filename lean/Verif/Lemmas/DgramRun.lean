import Verif.Lemmas.DgramCalm

/-! Datagram gensios that are used with care do not fail. -/
set_option linter.unusedSimpArgs false
namespace Gensio.Dgram

section
variable {nc : Bool} {pr : Prop}

theorem checkRead_sj (s : U) : Sj s (checkRead s) := by
  unfold checkRead
  split
  · constructor <;> rfl
  · split <;> constructor <;> rfl

theorem J.deref {k : Nat} {e : Option Nat} {s : U} (hI : I (k + 1) s) (h : J nc pr e s) : ∃ t, Dgram.deref s = some t ∧ J nc pr e t := by
  have h1 := hI.ref
  unfold Dgram.deref
  rw [if_neg (by omega)]
  split
  · exact ⟨_, rfl, h.same (by constructor <;> rfl)⟩
  · exact ⟨_, rfl, h.same (by constructor <;> rfl)⟩

theorem J.ref {e : Option Nat} {s : U} (hz : s.ref ≠ 0) (h : J nc pr e s) : ∃ t, Dgram.ref s = some t ∧ J nc pr e t ∧ t = { s with ref := s.ref + 1 } := by
  unfold Dgram.ref
  rw [if_neg hz]
  exact ⟨_, rfl, h.same (by constructor <;> rfl), rfl⟩

theorem J.startDop {e : Option Nat} {s : U} (hz : s.ref ≠ 0) (h : J nc pr e s) : ∃ t, Dgram.startDop s = some t ∧ J nc pr e t := by
  unfold Dgram.startDop
  split
  · exact ⟨_, rfl, h⟩
  · obtain ⟨t, ht, hJ, _⟩ := h.ref hz
    rw [ht]
    exact ⟨_, rfl, hJ.same (by constructor <;> rfl)⟩

theorem J.fdReadEnable {e : Option Nat} {s : U} (hz : s.rdCnt ≠ 0) (h : J nc pr e s) : ∃ t, Dgram.fdReadEnable s = some t ∧ J nc pr e t := by
  unfold Dgram.fdReadEnable
  rw [if_neg hz]
  exact ⟨_, rfl, (h.same (by constructor <;> rfl)).check⟩

theorem J.checkFinish {k : Nat} {e : Option Nat} {s : U} (hI : I (k + 1) s) (h : J nc pr e s) : ∃ t, Dgram.checkFinish s = some t ∧ J nc pr e t := by
  have h1 := hI.ref
  unfold Dgram.checkFinish
  split
  · exact ⟨_, rfl, h⟩
  · rename_i hn
    have hf : s.finished = false := by
      cases hx : s.finished
      · rfl
      · exact absurd (by simp [hx]) hn
    rw [hf] at h1
    simp only [Bool.not_false, b2n_true] at h1
    rw [if_neg (by omega)]
    refine ⟨_, rfl, ?_⟩
    obtain ⟨h1, h2, h3, h4, h5, h6, h7, h8, h9, h10⟩ := h
    refine ⟨h1, h2, h3, h4, h5, h6, ?_, h8, h9, h10⟩
    intro _
    simp only [not_or, Bool.not_eq_true, Decidable.not_not, Bool.not_eq_false] at hn
    simp at hn
    exact ⟨hn.2.2.1, hn.1, hn.2.2.2.2.1⟩

theorem J.outEnable {k : Nat} {s : U} (hI : I (k + 1) s) (h : J nc pr none s) : ∃ t, Dgram.outEnable s = some t ∧ J nc pr none t := by
  unfold Dgram.outEnable
  split
  · rename_i hr
    have hx := hI.rh hr
    have hc := hI.rdc
    have h' : J nc pr none { s with rhDis := false, extra := s.extra - 1 } := h.same (by constructor <;> rfl)
    obtain ⟨t, ht, hJ⟩ := J.fdReadEnable (s := { s with rhDis := false, extra := s.extra - 1 }) (by dsimp only; omega) h'
    rw [ht, Option.bind_some]
    refine J.deref (k := k) ?_ hJ
    refine I.fdReadEnable ?_ ht
    obtain ⟨h1, h2, h3, h4, h5, h6, h7, h8, h9, h10⟩ := hI
    refine ⟨h1, h2, h3, h4, h5, ?_, by simp, h8, h9, h10⟩
    dsimp only; omega
  · exact h.deref hI

theorem J.afterWr {k : Nat} {s : U} (hI : I (k + 1) s) (h : J nc pr none s) : ∃ t, Dgram.afterWr s = some t ∧ J nc pr none t := by
  unfold Dgram.afterWr
  split
  · exact J.deref (k := k) (hI.same (by constructor <;> rfl)) (h.same (by constructor <;> rfl))
  · exact h.deref hI

theorem J.fin' {k : Nat} {ctx : Ctx} {s : U} (hI : I (k + 1) s) (h : J nc pr none s) : ∃ t, Dgram.fin ctx s = some t ∧ J nc pr none t := by
  cases ctx
  · exact h.outEnable hI
  · exact h.deref hI
  · exact h.afterWr hI

theorem not_mem_of_not_up {k : Nat} {s : U} {i : Nat} {c : C} (hI : I k s) (hc : s.cs[i]? = some c) (hu : c.up = false) : i ∉ s.udpns := by
  intro hx
  obtain ⟨d, hd, hdu⟩ := (hI.mem i).mp hx
  rw [hc] at hd; cases hd
  rw [hu] at hdu; cases hdu

theorem J.not_own {k : Nat} {e : Option Nat} {s : U} {i : Nat} {c : C} (hI : I k s) (h : J nc pr e s) (hc : s.cs[i]? = some c) (hu : c.up = false) : s.owner ≠ some i :=
  fun hx => not_mem_of_not_up hI hc hu (h.own i hx)

theorem J.finishFree {k : Nat} {s : U} {i : Nat} {c : C} (hI : I (k + 1) s) (h : J nc pr none s) (hg : s.get i = some c) (hst : c.st = .closed)
    (hfr : c.freed = true) (hd : c.dop = false) (hcb : c.inCloseCb = false) : ∃ t, Dgram.finishFree s i = some t ∧ J nc pr none t := by
  obtain ⟨hc, hgo⟩ := get_some.mp hg
  have hni := not_mem_of_not_up hI hc (up_closed hst)
  have hcnt : s.cnt ≠ 0 := by
    rw [hI.cnt]
    have : 0 < s.cs.countP (!·.gone) := List.countP_pos_iff.mpr ⟨c, List.mem_of_getElem? hc, by simp [hgo]⟩
    omega
  have hstep : Dgram.finishFree s i = Dgram.checkFinish { (s.put i { c with gone := true }) with cnt := s.cnt - 1 } := by
    unfold Dgram.finishFree
    rw [hg, Option.bind_some, if_neg]
    simp [hni, hcnt, hd]
  rw [hstep]
  have hf := h.full hc
  have h1 : J nc pr none (s.put i { c with gone := true }) := by
    refine (h.weak.mput hc).back (put_self hc) ⟨?_, ?_, hf.d, hf.ad⟩
    · obtain ⟨q1, q2, q3, q4, q5, q6, q7, q8, q9, q10, q11, q12⟩ := hf.q
      exact ⟨q1, q2, q3, q4, q5, q6, q7, q8, q9, q10, fun _ => ⟨hfr, hst, hcb⟩, q12⟩
    · intro _ hx; exact absurd (hst ▸ hx : St.closed = .inClose) (by simp)
  have h2 : J nc pr none { (s.put i { c with gone := true }) with cnt := s.cnt - 1 } := by
    obtain ⟨h1, h2, h3, h4, h5, h6, h7, h8, h9, h10⟩ := h1
    refine ⟨h1, h2, h3, h4, h5, h6, ?_, h8, h9, h10⟩
    intro hfin
    obtain ⟨a, b⟩ := h7 hfin
    exact absurd a hcnt
  refine J.checkFinish (k := k) ?_ h2
  -- the counts
  obtain ⟨g1, g2, g3, g4, g5, g6, g7, g8, g9, g10⟩ := hI
  have e1 := countP_set' (p := (·.dop)) (c' := { c with gone := true }) hc
  have e2 := countP_set' (p := (!·.gone)) (c' := { c with gone := true }) hc
  have e3 := countP_set' (p := C.mute) (c' := { c with gone := true }) hc
  have hm : ({ c with gone := true } : C).mute = c.mute := rfl
  simp only [hm, hgo, Bool.not_false, Bool.not_true, b2n_true, b2n_false] at e1 e2 e3
  constructor
  · simp only [U.put]; omega
  · exact g2
  · simp only [U.put]; omega
  · exact g4
  · intro j
    show j ∈ s.udpns ↔ ∃ d, (s.put i _).cs[j]? = some d ∧ _
    rw [put_get hc, g5 j]
    by_cases hij : i = j
    · subst hij; rw [if_pos rfl, hc]; simp [C.up]
    · rw [if_neg hij]
  · simp only [U.put]; omega
  · exact g7
  · intro j d hj
    replace hj : (s.put i { c with gone := true }).cs[j]? = some d := hj
    rw [put_get hc] at hj
    split at hj
    · cases hj; exact g8 i c hc
    · exact g8 _ _ hj
  · intro j d hj
    replace hj : (s.put i { c with gone := true }).cs[j]? = some d := hj
    rw [put_get hc] at hj
    split at hj
    · cases hj; exact fun _ => ⟨hd, up_closed hst⟩
    · exact g9 _ _ hj
  · exact g10

theorem J.finishClose2 {k : Nat} {s : U} {i : Nat} {c : C} (hI : I (k + 1) s) (h : J nc pr none s) (hg : s.get i = some c) (hst : c.st = .closed)
    (hcb : c.inCloseCb = false) : ∃ t, Dgram.finishClose2 s i = some t ∧ J nc pr none t := by
  obtain ⟨hc, hgo⟩ := get_some.mp hg
  unfold Dgram.finishClose2
  rw [hg, Option.bind_some]
  dsimp only
  rw [if_neg (h.not_own hI hc (up_closed hst))]
  split
  · rename_i hx
    exact h.finishFree hI hg hst hx.1 (by simpa using hx.2) hcb
  · exact ⟨_, rfl, h⟩

theorem cons_count {p : T → Bool} {t : T} {l : List T} : (t :: l).countP p = l.countP p + b2n (p t) := by
  rw [List.countP_cons]; cases p t <;> rfl

theorem J.finishClose {k : Nat} {s : U} {i : Nat} {ctx : Ctx} {c : C} (hI : I (k + 1) s) (h : J nc pr (some i) s) (hg : s.get i = some c)
    (hst : c.st = .inClose) (hQ : Q s.ths i c) (hr : ctx = .rh → s.nfd ≤ 1 → s.ths.countP T.isRh = 0) :
    ∃ t, Dgram.finishClose s i ctx = some t ∧ J nc pr none t := by
  obtain ⟨hc, hgo⟩ := get_some.mp hg
  have hno := h.not_own hI hc (up_inClose hst)
  unfold Dgram.finishClose
  rw [hg, Option.bind_some]
  split
  · rename_i hb
    refine J.fin' hI (h.back hc ⟨hQ, fun _ _ => .inr hb, ?_, ?_⟩)
    · intro hu; rw [up_inClose hst] at hu; cases hu
    · intro _ ho; exact absurd ho hno
  · rename_i hb
    have hb1 : c.inRead = false := by cases hx : c.inRead; rfl; exact absurd (.inl hx) hb
    have hb2 : c.inWrite = false := by cases hx : c.inWrite; rfl; exact absurd (.inr (.inl hx)) hb
    have hb3 : c.inOpenCb = false := by cases hx : c.inOpenCb; rfl; exact absurd (.inr (.inr hx)) hb
    have hic : c.inCloseCb = false := by
      cases hx : c.inCloseCb
      · rfl
      · have := hQ.ic hx; rw [hst] at this; cases this
    have hdr : c.defRead = false := by
      cases hx : c.defRead
      · rfl
      · have := hQ.dr hx; rw [hb1] at this; cases this
    have hwr : c.wr = false := hQ.wr (up_inClose hst)
    obtain ⟨q1, q2, q3, q4, q5, q6, q7, q8, q9, q10, q11, q12⟩ := hQ
    split
    · rename_i id _
      refine ⟨_, rfl, ?_⟩
      have h1 := ((h.mput (c' := { c with st := .closed, closeDone := none, inCloseCb := true }) hc).say (ev := .closed i id)).mcall
        (t := .closeCb i ctx) (put_self hc) rfl (by simp) (by intro hx; cases ctx <;> simp [T.isRh] at hx; exact hr rfl) (by simp)
      refine h1.back (put_self hc) ⟨⟨?_, ?_, ?_, ?_, ?_, ?_, ?_, ?_, ?_, ?_, ?_, ?_⟩, ?_, ?_, ?_⟩
      · simp only [U.call, U.say, U.put, cons_count, T.rdr]; simpa [hb1] using q1
      · simp only [U.call, U.say, U.put, cons_count, T.wtr]; simpa [hb2] using q2
      · simp only [U.call, U.say, U.put, cons_count, T.opr]; simpa [hb3] using q3
      · simp only [U.call, U.say, U.put, cons_count, T.clr]; rw [q4, hic]; simp
      · exact q5
      · simp [hb1, hb2, hb3]
      · simp
      · simp
      · exact fun _ => hwr
      · exact fun _ => rfl
      · intro hx; replace hx : c.gone = true := hx; rw [hgo] at hx; cases hx
      · simp [hdr]
      · intro _ hx; cases hx
      · intro hx; cases hx
      · intro _ ho; exact absurd ho hno
    · have hc2 : (s.put i { c with st := .closed }).get i = some { c with st := .closed } := get_some.mpr ⟨put_self hc, hgo⟩
      have h1 : J nc pr none (s.put i { c with st := .closed }) := by
        refine (h.mput (c' := { c with st := .closed }) hc).back (put_self hc) ⟨⟨q1, q2, q3, q4, q5, ?_, ?_, ?_, ?_, ?_, ?_, ?_⟩, ?_, ?_, ?_⟩
        · simp [hb1, hb2, hb3]
        · simp
        · simp
        · exact fun _ => hwr
        · exact fun _ => rfl
        · intro hx; replace hx : c.gone = true := hx; rw [hgo] at hx; cases hx
        · simp [hdr]
        · intro _ hx; cases hx
        · intro hx; cases hx
        · intro _ ho; exact absurd ho hno
      have hI1 : I (k + 1) (s.put i { c with st := .closed }) := hI.put hc (h3 := by rw [up_inClose hst]; rfl)
      obtain ⟨t, ht, hJ⟩ := h1.finishClose2 hI1 hc2 rfl hic
      rw [ht, Option.bind_some]
      exact hJ.fin' (hI1.finishClose2 ht)

theorem J.afterRead {k : Nat} {s : U} {i : Nat} {c : C} (hI : I (k + 1) s) (h : J nc pr (some i) s) (hg : s.get i = some c) (hQ : Q s.ths i c)
    (hst : c.st ≠ .closed) (hin : c.inRead = false) (ha : nc = false → s.owner = some i → s.pend ≠ 0 → c.addr = s.cur)
    (hr : s.nfd ≤ 1 → s.ths.countP T.isRh = 0) : ∃ t, Dgram.afterRead s i = some t ∧ J nc pr none t := by
  obtain ⟨hc, hgo⟩ := get_some.mp hg
  have hdr : c.defRead = false := by
    cases hx : c.defRead
    · rfl
    · have := hQ.dr hx; rw [hin] at this; cases this
  unfold Dgram.afterRead
  rw [hg, Option.bind_some]
  split
  · rename_i hx
    exact h.finishClose hI hg hx hQ (fun _ => hr)
  · rename_i hnc
    have hfull : Full nc pr s s.ths i c := ⟨hQ, fun _ hx => absurd hx hnc, by simp [hin], fun hn ho hx => ha hn ho (by simpa [hin] using hx)⟩
    have hI' : I (k + 1) { s with inShut := false } := hI.same (by constructor <;> rfl)
    have h' : J nc pr (some i) { s with inShut := false } := h.same (by constructor <;> rfl)
    split
    · split
      · rename_i id _
        refine ⟨_, rfl, ?_⟩
        have h1 := ((h'.mput (c' := { c with inRead := true }) hc).say (ev := .shutCb id)).mcall
          (t := .shutRh i) (put_self hc) rfl (by simp) (fun _ => hr) (by simp)
        obtain ⟨q1, q2, q3, q4, q5, q6, q7, q8, q9, q10, q11, q12⟩ := hQ
        refine h1.back (put_self hc) ⟨⟨?_, ?_, ?_, ?_, ?_, ?_, q7, q8, q9, q10, q11, q12⟩, ?_, ?_, ?_⟩
        · simp only [U.call, U.say, U.put, cons_count, T.rdr]; rw [q1]; simp [hin, hdr]
        · simp only [U.call, U.say, U.put, cons_count, T.wtr]; simpa using q2
        · simp only [U.call, U.say, U.put, cons_count, T.opr]; simpa using q3
        · simp only [U.call, U.say, U.put, cons_count, T.clr]; simpa using q4
        · simp
        · exact fun _ => hst
        · exact fun _ _ => .inr (.inl rfl)
        · exact fun _ _ => .inr (by simp [U.call])
        · intro hn ho hx
          refine ha hn ho ?_
          rcases hx with hx | hx
          · exact hx
          · exact absurd (by simp [U.call]) hx.2
      · have e : ({ c with inRead := false } : C) = c := by rw [← hin]
        rw [e]
        have hp : ({ s with inShut := false } : U).put i c = { s with inShut := false } := by
          unfold U.put
          obtain ⟨hlt, hv⟩ := List.getElem?_eq_some_iff.mp hc
          dsimp only
          rw [← hv, List.set_getElem_self]
        rw [hp]
        obtain ⟨t, ht, hJ⟩ := J.checkFinish hI' (h'.back (c := c) hc ⟨hfull.q, hfull.cl, hfull.d, hfull.ad⟩)
        rw [ht, Option.bind_some]
        exact hJ.outEnable (hI'.checkFinish ht)
    · obtain ⟨t, ht, hJ⟩ := J.checkFinish hI (h.back hc hfull)
      rw [ht, Option.bind_some]
      exact hJ.outEnable (hI.checkFinish ht)

/-- A read callback is called. -/
theorem J.callRead {s : U} {i : Nat} {rh : Bool} {c c' : C} (h : J nc pr (some i) s) (hc : s.cs[i]? = some c) (hw : c'.wr = c.wr) (had : c'.addr = c.addr)
    (hQ : Q (.read i rh :: s.ths) i c') (hin : c'.inRead = true) (ho : s.owner = some i) (hp : s.nfd ≤ 1 → s.pend ≠ 0) (ha : nc = false → c.addr = s.cur)
    (hr : rh = true → s.nfd ≤ 1 → s.ths.countP T.isRh = 0) : J nc pr none (Dgram.callRead (s.put i c') i rh) := by
  unfold Dgram.callRead
  have h1 := ((h.mput (c' := c') hc hw had).sayRead (put_self hc) (by rw [had]; exact ha)).mcall
    (t := .read i rh) (put_self hc) rfl (by simp) (by intro hx; cases rh <;> simp [T.isRh] at hx; exact hr rfl) (by simp)
  refine h1.back (put_self hc) ⟨hQ, fun _ _ => .inr (.inl hin), ?_, ?_⟩
  · exact fun _ _ => .inl ⟨ho, hp⟩
  · intro hn _ _; rw [had]; exact ha hn

theorem J.gotNdata {k : Nat} {s : U} {i : Nat} {c : C} (hI : I (k + 1) s) (h : J nc pr (some i) s) (hg : s.get i = some c) (hQ : Q s.ths i c)
    (hst : c.st ≠ .closed) (hin : c.inRead = false) (ho : s.owner = some i) (hp : s.nfd ≤ 1 → s.pend ≠ 0) (ha : nc = false → c.addr = s.cur)
    (hr : s.nfd ≤ 1 → s.ths.countP T.isRh = 0) : ∃ t, Dgram.gotNdata s i = some t ∧ J nc pr none t := by
  obtain ⟨hc, hgo⟩ := get_some.mp hg
  have hdr : c.defRead = false := by
    cases hx : c.defRead
    · rfl
    · have := hQ.dr hx; rw [hin] at this; cases this
  unfold Dgram.gotNdata
  rw [hg, Option.bind_some]
  split
  · refine ⟨_, rfl, ?_⟩
    refine h.callRead (c := c) (c' := { c with inRead := true }) hc rfl rfl ?_ rfl ho hp ha (fun _ => hr)
    obtain ⟨q1, q2, q3, q4, q5, q6, q7, q8, q9, q10, q11, q12⟩ := hQ
    refine ⟨?_, ?_, ?_, ?_, ?_, ?_, q7, q8, q9, q10, q11, q12⟩
    · simp only [cons_count, T.rdr]; rw [q1]; simp [hin, hdr]
    · simp only [cons_count, T.wtr]; simpa using q2
    · simp only [cons_count, T.opr]; simpa using q3
    · simp only [cons_count, T.clr]; simpa using q4
    · simp
    · exact fun _ => hst
  · exact h.afterRead hI hg hQ hst hin (fun hn _ _ => ha hn) hr

theorem J.dopEnd {k : Nat} {s : U} (hI : I (k + 1) s) (h : J nc pr none s) : ∃ t, Dgram.dopEnd s = some t ∧ J nc pr none t := by
  unfold Dgram.dopEnd
  split
  · exact h.check.deref hI.check
  · exact h.deref hI

theorem J.dopRest {k : Nat} {s : U} (hI : I (k + 1) s) (h : J nc pr none s) : ∃ t, Dgram.dopRest s = some t ∧ J nc pr none t := by
  have hI' : I (k + 1) { s with inShut := false } := hI.same (by constructor <;> rfl)
  have h' : J nc pr none { s with inShut := false } := h.same (by constructor <;> rfl)
  unfold Dgram.dopRest
  split
  · split
    · exact ⟨_, rfl, J.call0 (J.say h') rfl rfl⟩
    · obtain ⟨t, ht, hJ⟩ := J.checkFinish hI' h'
      rw [ht, Option.bind_some]
      exact hJ.dopEnd (hI'.checkFinish ht)
  · exact h.dopEnd hI

theorem J.readCont {k : Nat} {s : U} {i : Nat} {rh err : Bool} {count : Nat} {c : C} (hI : I (k + 1) s) (h : J nc pr (some i) s) (hg : s.get i = some c)
    (hQ : Q (.read i rh :: s.ths) i c) (hd : c.up = true → s.owner = some i ∧ (s.nfd ≤ 1 → s.pend ≠ 0)) (ha : nc = false → s.owner = some i → c.addr = s.cur)
    (hr : rh = true → s.nfd ≤ 1 → s.ths.countP T.isRh = 0) (hp : rh = false → pr → c.st ≠ .inClose) :
    ∃ t, Dgram.readCont s i rh err count = some t ∧ J nc pr none t := by
  obtain ⟨hc, hgo⟩ := get_some.mp hg
  have hrd := hQ.rdn
  simp only [cons_count, T.rdr, beq_self_eq_true, b2n_true] at hrd
  have hin : c.inRead = true := by
    cases hx : c.inRead
    · rw [hx] at hrd; simp at hrd
    · rfl
  have hdr : c.defRead = false := by
    cases hx : c.defRead
    · rfl
    · rw [hx] at hrd; simp at hrd
  have hst : c.st ≠ .closed := hQ.busy (.inl hin)
  have out : ∀ u : U, I (k + 1) u → J nc pr (some i) u → u.cs = s.cs → u.ths = s.ths → u.nfd = s.nfd → (nc = false → u.owner = some i → u.pend ≠ 0 → c.addr = u.cur) →
      ∃ t, (if rh then Dgram.afterRead (checkRead (u.put i { c with inRead := false })) i else Dgram.dopRest (checkRead (u.put i { c with inRead := false }))) = some t ∧ J nc pr none t := by
    intro u hu hJ hcs hths hnf hau
    have hc' : u.cs[i]? = some c := by rw [hcs]; exact hc
    have hI2 : I (k + 1) (checkRead (u.put i { c with inRead := false })) := (hu.put hc').check
    have hJ2 : J nc pr (some i) (checkRead (u.put i { c with inRead := false })) := (hJ.mput hc').check
    have hcs2 : (checkRead (u.put i { c with inRead := false })).cs[i]? = some { c with inRead := false } := by
      rw [(checkRead_same _).cs]; exact put_self hc'
    have hths2 : (checkRead (u.put i { c with inRead := false })).ths = s.ths := by
      rw [(checkRead_sj _).ths]; exact hths
    have hnf2 : (checkRead (u.put i { c with inRead := false })).nfd = s.nfd := by
      rw [(checkRead_sj _).nfd]; exact hnf
    have how2 : (checkRead (u.put i { c with inRead := false })).owner = u.owner := by
      rw [(checkRead_sj _).owner]; rfl
    have hpe2 : (checkRead (u.put i { c with inRead := false })).pend = u.pend := by
      rw [(checkRead_sj _).pend]; rfl
    have hcu2 : (checkRead (u.put i { c with inRead := false })).cur = u.cur := by
      rw [(checkRead_sj _).cur]; rfl
    have hQ2 : Q s.ths i { c with inRead := false } := by
      obtain ⟨q1, q2, q3, q4, q5, q6, q7, q8, q9, q10, q11, q12⟩ := hQ
      simp only [cons_count, T.rdr, T.wtr, T.opr, T.clr, b2n_false, Nat.add_zero] at q2 q3 q4
      refine ⟨?_, q2, q3, q4, ?_, ?_, q7, q8, q9, q10, q11, q12⟩
      · rw [hin, hdr] at hrd; simp at hrd ⊢; exact hrd
      · simp [hdr]
      · exact fun _ => hst
    cases hrh : rh
    · refine J.dopRest hI2 (hJ2.back hcs2 ⟨by rw [hths2]; exact hQ2, ?_, by simp, ?_⟩)
      · intro hpr hx; exact absurd hx (hp hrh hpr)
      · intro hn ho hx
        rw [how2] at ho
        rw [hpe2] at hx
        rw [hcu2]
        exact hau hn ho (by simpa using hx)
    · refine J.afterRead hI2 hJ2 (get_some.mpr ⟨hcs2, hgo⟩) (by rw [hths2]; exact hQ2) hst rfl ?_ ?_
      · rw [how2, hpe2, hcu2]; exact hau
      · rw [hnf2, hths2]; exact hr hrh
  unfold Dgram.readCont
  rw [hg, Option.bind_some]
  dsimp only
  split
  · exact out s hI h rfl rfl rfl (fun hn ho _ => ha hn ho)
  · split
    · exact out s hI h rfl rfl rfl (fun hn ho _ => ha hn ho)
    · rename_i hnc
      have hu : c.up = true := by
        revert hst hnc; unfold C.up; cases c.st <;> simp
      obtain ⟨ho, hpe⟩ := hd hu
      split
      · rename_i hlt
        have h' : J nc pr (some i) { s with pend := s.pend - count } := h.part (by omega) (by omega)
        have hI' : I (k + 1) { s with pend := s.pend - count } := hI.same (by constructor <;> rfl)
        split
        · refine ⟨_, rfl, ?_⟩
          have hp : ({ s with pend := s.pend - count } : U).put i c = { s with pend := s.pend - count } := by
            unfold U.put
            obtain ⟨hlt, hv⟩ := List.getElem?_eq_some_iff.mp hc
            dsimp only
            rw [← hv, List.set_getElem_self]
          rw [← hp]
          exact h'.callRead hc rfl rfl hQ hin ho (fun _ => by dsimp only; omega) (fun hn => ha hn ho) hr
        · exact out _ hI' h' rfl rfl rfl (fun hn ho _ => ha hn ho)
      · exact out _ (hI.same (t := { s with owner := none, pend := 0 }) (by constructor <;> rfl)) (h.drop ho) rfl rfl rfl (fun _ ho => by cases ho)

end
end Gensio.Dgram
