import Verif.Lemmas.DgramRun

/-! The steps of datagram gensios that are used with care. -/
set_option linter.unusedSimpArgs false
namespace Gensio.Dgram

/-- Use with care: a connection is not opened again in its close callback; writing is not turned on or off during an open; no `enable_done` is
outstanding when the callback for a new connection returns; with several sockets no open connection is in a read callback when the next datagram
comes in. -/
def Calm (s : U) : Op → Prop
  | .opn i _ => ∀ c, s.cs[i]? = some c → c.inCloseCb = false
  | .setWrite i _ => ∀ c, s.cs[i]? = some c → c.st ≠ .inOpen
  | .cont k _ _ => ∀ i, s.ths[k]? = some (.new i) → s.enDone = none
  | .rx _ _ _ => s.nfd ≤ 1 ∨ s.pend ≠ 0 ∨ ∀ (i : Nat) (c : C), s.cs[i]? = some c → c.up = true → c.inRead = false
  | _ => True

/-- No connection is being closed when one of two callbacks returns: a read callback made by `udpna_deferred_op`, and `shutdown_done` made by the read
handler. -/
def Prompt (s : U) : Op → Prop
  | .cont k _ _ => ∀ (i : Nat) (c : C), (s.ths[k]? = some (.read i false) ∨ s.ths[k]? = some (.shutRh i)) → s.cs[i]? = some c → c.st ≠ .inClose
  | _ => True

section
variable {nc : Bool} {pr : Prop}

/-- Who has `in_read` set. -/
theorem Q.nshut {ths : List T} {i : Nat} {c : C} {t : T} (h : Q (t :: ths) i c) (ht : t.rdr i = true) : T.shutRh i ∉ ths := by
  intro hm
  have h1 := h.rdn
  rw [cons_count, ht] at h1
  have : 0 < ths.countP (T.rdr i) := List.countP_pos_iff.mpr ⟨_, hm, by simp [T.rdr]⟩
  cases hx : (c.inRead && !c.defRead) <;> rw [hx] at h1 <;> simp only [b2n_true, b2n_false] at h1 <;> omega

theorem J.newCont {k : Nat} {s : U} {i : Nat} {c : C} (hI : I (k + 1) s) (h : J nc pr (some i) s) (he : s.enDone = none) (hg : s.get i = some c)
    (hQ : Q (.new i :: s.ths) i c) (hd : c.up = true → s.owner = some i ∧ (s.nfd ≤ 1 → s.pend ≠ 0)) (ha : nc = false → s.owner = some i → c.addr = s.cur)
    (hr : s.nfd ≤ 1 → s.ths.countP T.isRh = 0) (hw : s.nfd ≤ 1 → s.pend = 0 ∨ s.owner = some i) :
    ∃ t, Dgram.newCont (s.put i { c with inRead := false }) i = some t ∧ J nc pr none t := by
  obtain ⟨hc, hgo⟩ := get_some.mp hg
  have hrd := hQ.rdn
  simp only [cons_count, T.rdr, beq_self_eq_true, b2n_true] at hrd
  have hin : c.inRead = true := by
    cases hx : c.inRead
    · rw [hx] at hrd; simp at hrd
    · rfl
  have hdr : c.defRead = false := by
    cases hx : c.defRead
    · rfl
    · rw [hx] at hrd; simp at hrd
  have hst : c.st ≠ .closed := hQ.busy (.inl hin)
  have hQ2 : Q s.ths i { c with inRead := false } := by
    obtain ⟨q1, q2, q3, q4, q5, q6, q7, q8, q9, q10, q11, q12⟩ := hQ
    simp only [cons_count, T.rdr, T.wtr, T.opr, T.clr, b2n_false, Nat.add_zero] at q2 q3 q4
    refine ⟨?_, q2, q3, q4, ?_, ?_, q7, q8, q9, q10, q11, q12⟩
    · rw [hin, hdr] at hrd; simp at hrd ⊢; exact hrd
    · simp [hdr]
    · exact fun _ => hst
  have hg2 : (s.put i { c with inRead := false }).get i = some { c with inRead := false } := get_some.mpr ⟨put_self hc, hgo⟩
  have hI2 : I (k + 1) (s.put i { c with inRead := false }) := hI.put hc
  have hJ2 : J nc pr (some i) (s.put i { c with inRead := false }) := h.mput hc
  unfold Dgram.newCont
  rw [show (s.put i { c with inRead := false }).enDone = none from he]
  dsimp only
  rw [hg2, Option.bind_some]
  dsimp only
  split
  · rename_i hop
    obtain ⟨ho, hp⟩ := hd (by simp [C.up, hop])
    refine J.gotNdata (k := k) (c := { c with inRead := false }) ?_ ?_ hg2 hQ2 hst rfl ho hp (fun hn => ha hn ho) hr
    · exact hI2.same (by constructor <;> rfl)
    · exact hJ2.same (by constructor <;> rfl)
  · refine J.afterRead (k := k) (c := { c with inRead := false }) ?_ ?_ hg2 hQ2 hst rfl (fun _ _ hx => absurd rfl hx) hr
    · exact hI2.same (by constructor <;> rfl)
    obtain ⟨h1, h2, h3, h4, h5, h6, h7, h8, h9, h10⟩ := hJ2
    refine ⟨h1, ?_, ?_, h4, h5, h6, h7, h8, fun _ _ _ => .inl rfl, h10⟩
    · intro j d hj hn hu hi
      rcases h2 j d hj hn hu hi with x | x
      · refine .inl ⟨x.1, fun hnf => ?_⟩
        rcases hw hnf with y | y
        · exact absurd y (x.2 hnf)
        · exact absurd (y ▸ x.1 : some i = some j) hn
      · exact .inr x
    · intro hn j d hj hne ho hx
      refine h3 hn j d hj hne ho ?_
      rcases hx with hx | hx
      · exact absurd rfl hx
      · exact .inr hx

theorem J.add {s t : U} {c : C} (h : J nc pr none s) (hcs : t.cs = s.cs ++ [c]) (hw : c.wr = false) (e1 : t.ths = s.ths) (e2 : t.wrCnt = s.wrCnt)
    (e3 : t.owner = s.owner) (e4 : t.udpns = s.udpns ∨ t.udpns = s.udpns ++ [s.cs.length]) (e5 : s.finished = false) (e6 : t.finished = s.finished)
    (e8 : t.nfd = s.nfd) (e9 : t.pend = s.pend) (e10 : t.cur = s.cur) (e11 : t.log = s.log) :
    J nc pr (some s.cs.length) t := by
  obtain ⟨h1, h2, h3, h4, h5, h6, h7, h8, h9, h10⟩ := h
  have hget : ∀ j : Nat, some s.cs.length ≠ some j → t.cs[j]? = s.cs[j]? := by
    intro j hj
    rw [hcs]
    have hj : s.cs.length ≠ j := fun x => hj (by rw [x])
    by_cases hlt : j < s.cs.length
    · rw [List.getElem?_append_left hlt]
    · rw [List.getElem?_append_right (by omega), List.getElem?_eq_none (by omega : s.cs.length ≤ j), List.getElem?_eq_none (by simp; omega)]
  constructor
  · intro j d hj hn
    rw [hget j hn] at hj; rw [e1]; exact h1 j d hj (by simp)
  · intro j d hj hn
    rw [hget j hn] at hj; rw [e1, e3, e8, e9]; exact h2 j d hj (by simp)
  · intro hnc j d hj hn
    rw [hget j hn] at hj; rw [e1, e3, e9, e10]; exact h3 hnc j d hj (by simp)
  · intro u hu
    rw [e1] at hu
    refine ⟨(h4 u hu).1, fun j hj => ?_⟩
    have := (h4 u hu).2 j hj
    rw [hcs, List.length_append]; simp; omega
  · rw [e2, hcs, List.countP_append, List.countP_singleton, hw]; simpa using h5
  · intro j hj
    rw [e3] at hj
    rcases e4 with e4 | e4
    · rw [e4]; exact h6 j hj
    · rw [e4]; exact List.mem_append_left _ (h6 j hj)
  · rw [e6, e5]; simp
  · rw [e8, e1]; exact h8
  · rw [e8, e1, e9, e3]; exact h9
  · intro hn j a hm
    rw [e11] at hm
    obtain ⟨d, hd, hda⟩ := h10 hn j a hm
    refine ⟨d, ?_, hda⟩
    have hlt := (List.getElem?_eq_some_iff.mp hd).1
    rw [hcs, List.getElem?_append_left hlt]; exact hd

/-- No open connection is in a read callback when a datagram is read. -/
theorem J.noRead {s : U} (h : J nc pr none s) (hp : s.pend = 0) (hcan : s.ths.countP T.isRh < s.nfd)
    (hcalm : s.nfd ≤ 1 ∨ s.pend ≠ 0 ∨ ∀ (i : Nat) (c : C), s.cs[i]? = some c → c.up = true → c.inRead = false) :
    ∀ (i : Nat) (c : C), s.cs[i]? = some c → c.up = true → c.inRead = false := by
  rcases hcalm with hn | hn | hn
  · intro i c hc hu
    cases hx : c.inRead
    · rfl
    · rcases h.d i c hc (by simp) hu hx with y | y
      · exact absurd hp (y.2 hn)
      · have : 0 < s.ths.countP T.isRh := List.countP_pos_iff.mpr ⟨_, y, rfl⟩
        omega
  · exact absurd hp hn
  · exact hn

theorem C.new_q {ths : List T} {i : Nat} {a : Nat} (h : ∀ t ∈ ths, ∀ j, t.ix = some j → j < i) : ∀ p ∈ [T.rdr i, T.wtr i, T.opr i, T.clr i], ths.countP p = 0 := by
  intro p hp
  rw [List.countP_eq_zero]
  intro t ht
  have hx : t.ix ≠ some i := fun x => absurd (h t ht i x) (Nat.lt_irrefl _)
  simp only [List.mem_cons, List.not_mem_nil, or_false] at hp
  rcases hp with rfl | rfl | rfl | rfl
  · simp [T.rdr_of hx]
  · simp [T.wtr_of hx]
  · simp [T.opr_of hx]
  · simp [T.clr_of hx]

theorem J.rx {k : Nat} {g : Cfg} {s : U} {late : Bool} {a len : Nat} (hnc : nc = g.nocon) (hI : I k s) (h : J nc pr none s) (hz : s.ref ≠ 0)
    (hcan : s.ths.countP T.isRh < s.nfd) (hcalm : Calm s (.rx late a len)) : ∃ t, Dgram.rx g s a len = some t ∧ J nc pr none t := by
  obtain ⟨u, hu, hJ, he⟩ := h.ref hz
  have hIu := hI.ref1 hu
  unfold Dgram.rx
  rw [hu, Option.bind_some]
  split
  · refine J.deref (k := k) ?_ ?_
    · unfold fdReadDisable
      refine I.check ?_
      obtain ⟨h1, h2, h3, h4, h5, h6, h7, h8, h9, h10⟩ := hIu
      refine ⟨h1, h2, h3, h4, h5, ?_, ?_, h8, h9, h10⟩
      · dsimp only; omega
      · simp
    · unfold fdReadDisable
      exact J.check (hJ.same (by constructor <;> rfl))
  · rename_i hp
    replace hp : s.pend = 0 := by rw [he] at hp; simpa using hp
    have hnr := h.noRead hp hcan hcalm
    have hz1 : s.nfd ≤ 1 → s.ths.countP T.isRh = 0 := by omega
    split
    · exact hJ.deref hIu
    · rename_i hlen
      dsimp only
      subst he
      split
      · rename_i i hfind
        -- a connection is there
        have hi : i ∈ s.udpns := by
          split at hfind
          · exact List.mem_of_mem_head? (by rw [hfind]; rfl)
          · exact List.mem_of_find?_eq_some hfind
        obtain ⟨c, hc, hcu⟩ := (hI.mem i).mp hi
        have hgo : c.gone = false := by
          cases hx : c.gone
          · rfl
          · rw [(hI.gn i c hc hx).2] at hcu; cases hcu
        have hst : c.st ≠ .closed := fun x => by rw [up_closed x] at hcu; cases hcu
        have hq := (h.full hc).q
        refine J.gotNdata (k := k) (c := c) (hIu.same (by constructor <;> rfl)) ?_ (get_some.mpr ⟨hc, hgo⟩) hq hst (hnr i c hc hcu) rfl (fun _ => hlen) ?_ hz1
        · obtain ⟨h1, h2, h3, h4, h5, h6, h7, h8, h9, h10⟩ := h
          refine ⟨fun j d hj _ => h1 j d hj (by simp), ?_, ?_, h4, h5, ?_, h7, h8, ?_, h10⟩
          · intro j d hj _ hju hji
            rw [hnr j d hj hju] at hji; cases hji
          · intro _ j d hj hne ho
            exact absurd ho hne
          · intro j hj; cases hj; exact hi
          · intro hnf j hj
            have : 0 < s.ths.countP T.isRh := List.countP_pos_iff.mpr ⟨_, hj, rfl⟩
            dsimp only at hnf; omega
        · intro hn
          rw [hnc] at hn
          rw [hn] at hfind
          simp only [Bool.false_eq_true, if_false] at hfind
          have := List.find?_some hfind
          rw [hc] at this
          simpa using this
      · split
        · -- the datagram is dropped
          refine J.outEnable (k := k) (hIu.same (by constructor <;> rfl)) ?_
          obtain ⟨h1, h2, h3, h4, h5, h6, h7, h8, h9, h10⟩ := h
          refine ⟨h1, ?_, ?_, h4, h5, h6, h7, h8, ?_, h10⟩
          · intro j d hj _ hju hji
            rw [hnr j d hj hju] at hji; cases hji
          · intro _ j d hj _ ho hx
            obtain ⟨d', hd', hdu⟩ := (hI.mem j).mp (h6 j ho)
            replace hj : s.cs[j]? = some d := hj
            rw [hj] at hd'; cases hd'
            rw [hnr j d hj hdu] at hx
            simp at hx
          · exact fun _ _ _ => .inl rfl
        · -- a new connection
          rename_i hncl
          refine ⟨_, rfl, ?_⟩
          have hfin : s.finished = false := by
            cases hx : s.finished
            · rfl
            · exact absurd (.inl (h.fin hx).2.1) hncl
          have hlt : ∀ t ∈ s.ths, ∀ j, t.ix = some j → j < s.cs.length := fun t ht => (h.ix t ht).2
          have hq := C.new_q (a := a) hlt
          have hown : s.owner ≠ some s.cs.length := by
            intro hx
            obtain ⟨d, hd, _⟩ := (hI.mem _).mp (h.own _ hx)
            simp at hd
          have hnsh : T.shutRh s.cs.length ∉ s.ths := fun x => absurd (hlt _ x _ rfl) (Nat.lt_irrefl _)
          have h1 : J nc pr (some s.cs.length) { s with ref := s.ref + 1, cs := s.cs ++ [{ C.new a with st := .opened, inRead := true }], udpns := s.udpns ++ [s.cs.length], cnt := s.cnt + 1, rdCnt := s.rdCnt + 1, inNew := true } :=
            h.add (c := { C.new a with st := .opened, inRead := true }) rfl rfl rfl rfl rfl (.inr rfl) hfin rfl rfl rfl rfl rfl
          have h2 : J nc pr (some s.cs.length) { s with ref := s.ref + 1, pend := len, cur := a, cs := s.cs ++ [{ C.new a with st := .opened, inRead := true }], udpns := s.udpns ++ [s.cs.length], cnt := s.cnt + 1, rdCnt := s.rdCnt + 1, inNew := true, owner := some s.cs.length } := by
            obtain ⟨h1, h2, h3, h4, h5, h6, h7, h8, h9, h10⟩ := h1
            refine ⟨h1, ?_, ?_, h4, h5, ?_, h7, h8, ?_, h10⟩
            · intro j d hj hne hju hji
              replace hj : (s.cs ++ [{ C.new a with st := .opened, inRead := true }])[j]? = some d := hj
              have hlt' : j < s.cs.length := by
                have := (List.getElem?_eq_some_iff.mp hj).1
                simp at this
                have : s.cs.length ≠ j := fun x => hne (by rw [x])
                omega
              rw [List.getElem?_append_left hlt'] at hj
              rw [hnr j d hj hju] at hji; cases hji
            · intro _ j d hj hne ho
              exact absurd ho hne
            · intro j hj; cases hj; simp
            · intro hnf j hj
              have : 0 < s.ths.countP T.isRh := List.countP_pos_iff.mpr ⟨_, hj, rfl⟩
              dsimp only at hnf; omega
          have hcnew : (s.cs ++ [{ C.new a with st := .opened, inRead := true }])[s.cs.length]? = some { C.new a with st := .opened, inRead := true } := by simp
          have h3 := (h2.say (ev := .new s.cs.length a)).mcall (t := .new s.cs.length) hcnew rfl (by simp) (fun _ => hz1)
            (by intro j hj _; cases hj; exact .inr rfl)
          refine h3.back hcnew ⟨⟨?_, ?_, ?_, ?_, ?_, ?_, ?_, ?_, ?_, ?_, ?_, ?_⟩, ?_, ?_, ?_⟩
          · simp only [U.call, U.say, cons_count, T.rdr]; rw [hq _ (by simp)]; simp [C.new]
          · simp only [U.call, U.say, cons_count, T.wtr]; rw [hq _ (by simp)]; simp [C.new]
          · simp only [U.call, U.say, cons_count, T.opr]; rw [hq _ (by simp)]; simp [C.new]
          · simp only [U.call, U.say, cons_count, T.clr]; rw [hq _ (by simp)]; simp [C.new]
          · simp
          · simp
          · simp [C.new]
          · simp [C.new]
          · simp [C.new]
          · simp [C.new]
          · simp [C.new]
          · simp [C.new]
          · intro _ hx; cases hx
          · exact fun _ _ => .inl ⟨rfl, fun _ => hlen⟩
          · exact fun _ _ _ => rfl

theorem up_not_gone {k : Nat} {s : U} {i : Nat} (hI : I k s) (hi : i ∈ s.udpns) : ∃ c, s.get i = some c ∧ c.up = true := by
  obtain ⟨c, hc, hcu⟩ := (hI.mem i).mp hi
  refine ⟨c, get_some.mpr ⟨hc, ?_⟩, hcu⟩
  cases hx : c.gone
  · rfl
  · rw [(hI.gn i c hc hx).2] at hcu; cases hcu

theorem J.tx {k : Nat} {s : U} (hI : I k s) (h : J nc pr none s) (hz : s.ref ≠ 0) : ∃ t, Dgram.tx s = some t ∧ J nc pr none t := by
  obtain ⟨u, hu, hJ, he⟩ := h.ref hz
  have hIu := hI.ref1 hu
  unfold Dgram.tx
  rw [hu, Option.bind_some]
  split
  · exact hJ.afterWr hIu
  · rename_i i hfind
    obtain ⟨c, hg, hcu⟩ := up_not_gone hIu (List.mem_of_find?_eq_some hfind)
    obtain ⟨hc, hgo⟩ := get_some.mp hg
    have hf := hJ.full hc
    have hst : c.st ≠ .closed := fun x => by rw [up_closed x] at hcu; cases hcu
    rw [hg, Option.bind_some]
    split
    · refine J.afterWr (hIu.put hc) ((hJ.weak.mput hc).back (put_self hc) ⟨?_, hf.cl, hf.d, hf.ad⟩)
      obtain ⟨q1, q2, q3, q4, q5, q6, q7, q8, q9, q10, q11, q12⟩ := hf.q
      exact ⟨q1, q2, q3, q4, q5, q6, q7, q8, q9, q10, q11, q12⟩
    · rename_i hw
      replace hw : c.inWrite = false := by simpa using hw
      refine ⟨_, rfl, ?_⟩
      have h1 := (hJ.weak.mput (c' := { c with inWrite := true }) hc).mcall (t := .wr i) (put_self hc) rfl (by simp) (by simp [T.isRh]) (by simp)
      refine h1.back (put_self hc) ⟨?_, ?_, ?_, ?_⟩
      · obtain ⟨q1, q2, q3, q4, q5, q6, q7, q8, q9, q10, q11, q12⟩ := hf.q
        refine ⟨?_, ?_, ?_, ?_, q5, fun _ => hst, q7, q8, q9, q10, q11, q12⟩
        · simp only [U.call, U.put, cons_count, T.rdr]; simpa using q1
        · simp only [U.call, U.put, cons_count, T.wtr]; rw [q2, hw]; simp
        · simp only [U.call, U.put, cons_count, T.opr]; simpa using q3
        · simp only [U.call, U.put, cons_count, T.clr]; simpa using q4
      · exact fun _ _ => .inr (.inr (.inl rfl))
      · intro hx hy
        rcases hf.d hx hy with z | z
        · exact .inl z
        · exact .inr (List.mem_cons_of_mem _ z)
      · intro hn ho hx
        refine hf.ad hn ho ?_
        rcases hx with x | ⟨x, y⟩
        · exact .inl x
        · exact .inr ⟨x, fun z => y (List.mem_cons_of_mem _ z)⟩

theorem J.wrCont {k : Nat} {s : U} {i : Nat} {err : Bool} {c : C} (hI : I (k + 1) s) (h : J nc pr (some i) s) (hg : s.get i = some c)
    (hf : Full nc pr s (.wr i :: s.ths) i c) : ∃ t, Dgram.wrCont s i err = some t ∧ J nc pr none t := by
  obtain ⟨hc, hgo⟩ := get_some.mp hg
  have hwn := hf.q.wrn
  simp only [cons_count, T.wtr, beq_self_eq_true, b2n_true] at hwn
  have hin : c.inWrite = true := by
    cases hx : c.inWrite
    · rw [hx] at hwn; simp at hwn
    · rfl
  unfold Dgram.wrCont
  rw [hg, Option.bind_some]
  split
  · refine ⟨_, rfl, ?_⟩
    have h1 := (h.mput (c' := { c with wrPend := false }) hc).mcall (t := .wr i) (put_self hc) rfl (by simp) (by simp [T.isRh]) (by simp)
    refine h1.back (put_self hc) ⟨?_, hf.cl, hf.d, hf.ad⟩
    obtain ⟨q1, q2, q3, q4, q5, q6, q7, q8, q9, q10, q11, q12⟩ := hf.q
    exact ⟨q1, q2, q3, q4, q5, q6, q7, q8, q9, q10, q11, q12⟩
  · dsimp only
    have hQ2 : Q s.ths i { c with wrPend := if err then c.wrPend else false, inWrite := false } := by
      obtain ⟨q1, q2, q3, q4, q5, q6, q7, q8, q9, q10, q11, q12⟩ := hf.q
      simp only [cons_count, T.rdr, T.wtr, T.opr, T.clr, b2n_false, Nat.add_zero] at q1 q3 q4
      refine ⟨q1, ?_, q3, q4, q5, ?_, q7, q8, q9, q10, q11, q12⟩
      · rw [hin] at hwn; simp at hwn ⊢; exact hwn
      · intro hx
        exact q6 (by rcases hx with x | x | x; exact .inl x; cases x; exact .inr (.inr x))
    have h1 := h.mput (c' := { c with wrPend := if err then c.wrPend else false, inWrite := false }) hc
    have hI1 : I (k + 1) (s.put i { c with wrPend := if err then c.wrPend else false, inWrite := false }) := hI.put hc
    split
    · rename_i hst
      exact h1.finishClose hI1 (get_some.mpr ⟨put_self hc, hgo⟩) hst hQ2 (by simp)
    · rename_i hst
      refine J.afterWr hI1 (h1.back (put_self hc) ⟨hQ2, fun _ hx => absurd hx hst, ?_, ?_⟩)
      · intro hx hy
        rcases hf.d hx hy with z | z
        · exact .inl z
        · simp at z; exact .inr z
      · intro hn ho hx
        refine hf.ad hn ho ?_
        rcases hx with x | ⟨x, y⟩
        · exact .inl x
        · exact .inr ⟨x, fun z => by simp at z; exact y z⟩

theorem J.cdopRest {k : Nat} {s : U} {i : Nat} {c : C} (hI : I (k + 1) s) (h : J nc pr (some i) s) (hg : s.get i = some c) (hQ : Q s.ths i c)
    (hd : c.up = true → c.inRead = true → (s.owner = some i ∧ (s.nfd ≤ 1 → s.pend ≠ 0)) ∨ T.shutRh i ∈ s.ths)
    (had : nc = false → s.owner = some i → (s.pend ≠ 0 ∨ (c.inRead = true ∧ T.shutRh i ∉ s.ths)) → c.addr = s.cur)
    (hcd : c.st = .closed → c.dop = false) : ∃ t, Dgram.cdopRest s i = some t ∧ J nc pr none t := by
  obtain ⟨hc, hgo⟩ := get_some.mp hg
  unfold Dgram.cdopRest
  rw [hg, Option.bind_some]
  split
  · rename_i hst
    exact h.finishClose hI hg hst hQ (by simp)
  · rename_i hst
    have h1 := h.back hc ⟨hQ, fun _ hx => absurd hx hst, hd, had⟩
    split
    · rename_i hx
      have hcl : c.st = .closed := by
        have := hQ.fr hx.1
        revert this hst; unfold C.up; cases c.st <;> simp
      obtain ⟨t, ht, hJ⟩ := h1.finishFree hI hg hcl hx.1 (hcd hcl) (by simpa using hx.2.1)
      rw [ht, Option.bind_some]
      exact hJ.deref (hI.finishFree ht)
    · exact h1.deref hI

theorem J.cdop {k : Nat} {s : U} {i : Nat} (hI : I k s) (h : J nc pr none s) (hd : (s.cs[i]?.any fun c => c.dop) = true) :
    ∃ t, Dgram.cdop s i = some t ∧ J nc pr none t := by
  cases hc : s.cs[i]? with
  | none => rw [hc] at hd; cases hd
  | some c =>
    rw [hc] at hd
    replace hd : c.dop = true := hd
    have hgo : c.gone = false := by
      cases hx : c.gone
      · rfl
      · rw [(hI.gn i c hc hx).1] at hd; cases hd
    have hf := h.full hc
    unfold Dgram.cdop
    rw [get_some.mpr ⟨hc, hgo⟩, Option.bind_some]
    dsimp only
    split
    · rename_i hst
      have hu : c.up = true := by simp [C.up, hst]
      have hnf : c.freed = false := by
        cases hx : c.freed
        · rfl
        · rw [hf.q.fr hx] at hu; cases hu
      have hnc : c.inCloseCb = false := by
        cases hx : c.inCloseCb
        · rfl
        · rw [hf.q.ic hx] at hst; cases hst
      split
      · rename_i id _
        refine ⟨_, rfl, ?_⟩
        have h1 := ((h.weak.mput (c' := { c with dop := false, st := .opened, inOpenCb := true }) hc).say (ev := .opened i id)).mcall (t := .openCb i) (put_self hc) rfl (by simp) (by simp [T.isRh]) (by simp)
        refine h1.back (put_self hc) ⟨?_, ?_, ?_, ?_⟩
        · obtain ⟨q1, q2, q3, q4, q5, q6, q7, q8, q9, q10, q11, q12⟩ := hf.q
          refine ⟨?_, ?_, ?_, ?_, q5, ?_, ?_, ?_, ?_, ?_, ?_, ?_⟩
          · simp only [U.call, U.say, U.put, cons_count, T.rdr]; simpa using q1
          · simp only [U.call, U.say, U.put, cons_count, T.wtr]; simpa using q2
          · simp only [U.call, U.say, U.put, cons_count, T.opr]; rw [q3, q7 hst]; simp
          · simp only [U.call, U.say, U.put, cons_count, T.clr]; simpa using q4
          · simp
          · simp
          · simp [hnc]
          · simp [C.up]
          · simp [hnf]
          · intro hx; replace hx : c.gone = true := hx; rw [hgo] at hx; cases hx
          · simp [C.up]
        · intro _ hx; cases hx
        · intro _ hy
          rcases hf.d hu hy with z | z
          · exact .inl z
          · exact .inr (List.mem_cons_of_mem _ z)
        · intro hn ho hx
          refine hf.ad hn ho ?_
          rcases hx with x | ⟨x, y⟩
          · exact .inl x
          · exact .inr ⟨x, fun z => y (List.mem_cons_of_mem _ z)⟩
      · have hs := checkRead_sj (s.put i { c with dop := false, st := .opened })
        have hc2 : (checkRead (s.put i { c with dop := false, st := .opened })).cs[i]? = some { c with dop := false, st := .opened } := by
          rw [hs.cs]; exact put_self hc
        refine J.cdopRest (k := k) (c := { c with dop := false, st := .opened }) ?_ (h.weak.mput hc).check (get_some.mpr ⟨hc2, hgo⟩) ?_ ?_ ?_ (fun _ => rfl)
        · exact (hI.undop hc hd (h3 := by simp [C.up, hst])).check
        · rw [hs.ths]
          obtain ⟨q1, q2, q3, q4, q5, q6, q7, q8, q9, q10, q11, q12⟩ := hf.q
          refine ⟨q1, q2, q3, q4, q5, ?_, ?_, ?_, ?_, ?_, ?_, ?_⟩
          · simp
          · simp
          · simp [hnc]
          · simp [C.up]
          · simp [hnf]
          · intro hx; replace hx : c.gone = true := hx; rw [hgo] at hx; cases hx
          · simp [C.up]
        · rw [hs.owner, hs.nfd, hs.pend, hs.ths]
          exact fun _ hy => hf.d hu hy
        · rw [hs.owner, hs.pend, hs.ths, hs.cur]
          exact hf.ad
    · refine J.cdopRest (k := k) (c := { c with dop := false }) (hI.undop hc hd) (h.weak.mput hc) (get_some.mpr ⟨put_self hc, hgo⟩) ?_ hf.d hf.ad (fun _ => rfl)
      obtain ⟨q1, q2, q3, q4, q5, q6, q7, q8, q9, q10, q11, q12⟩ := hf.q
      exact ⟨q1, q2, q3, q4, q5, q6, q7, q8, q9, q10, q11, q12⟩

theorem J.adop {k : Nat} {s : U} (hI : I k s) (h : J nc pr none s) (hd : s.dop = true) : ∃ t, Dgram.adop s = some t ∧ J nc pr none t := by
  have hI' : I (k + 1) { s with dop := false } := by
    obtain ⟨h1, h2, h3, h4, h5, h6, h7, h8, h9, h10⟩ := hI
    refine ⟨?_, h2, h3, h4, h5, h6, h7, h8, h9, h10⟩
    rw [hd] at h1
    simp only [b2n_true, b2n_false] at h1 ⊢; omega
  have h' : J nc pr none { s with dop := false } := h.same (by constructor <;> rfl)
  unfold Dgram.adop
  dsimp only
  split
  · exact h'.dopRest hI'
  · rename_i i ho
    obtain ⟨c, hg, hcu⟩ := up_not_gone hI (h.own i ho)
    obtain ⟨hc, hgo⟩ := get_some.mp hg
    rw [show ({ s with dop := false } : U).get i = some c from hg, Option.bind_some]
    have hf := h.full hc
    have hst : c.st ≠ .closed := fun x => by rw [up_closed x] at hcu; cases hcu
    split
    · rename_i hdr
      have hin := hf.q.dr hdr
      have h0 : s.ths.countP (T.rdr i) = 0 := by rw [hf.q.rdn, hin, hdr]; rfl
      have hnsh : T.shutRh i ∉ s.ths := by
        intro hm
        have : 0 < s.ths.countP (T.rdr i) := List.countP_pos_iff.mpr ⟨_, hm, by simp [T.rdr]⟩
        omega
      have hdd : s.owner = some i ∧ (s.nfd ≤ 1 → s.pend ≠ 0) := by
        rcases hf.d hcu hin with x | x
        · exact x
        · exact absurd x hnsh
      split
      · refine ⟨_, rfl, ?_⟩
        refine J.callRead (s := { s with dop := false }) (c := c) (c' := { c with defRead := false }) h'.weak hc rfl rfl ?_ hin ho hdd.2 (fun hn => hf.ad hn ho (.inr ⟨hin, hnsh⟩)) (by simp)
        obtain ⟨q1, q2, q3, q4, q5, q6, q7, q8, q9, q10, q11, q12⟩ := hf.q
        refine ⟨?_, ?_, ?_, ?_, ?_, q6, q7, q8, q9, q10, q11, ?_⟩
        · simp only [cons_count, T.rdr]; rw [h0, hin]; simp
        · simp only [cons_count, T.wtr]; simpa using q2
        · simp only [cons_count, T.opr]; simpa using q3
        · simp only [cons_count, T.clr]; simpa using q4
        · simp
        · simp
      · refine J.dopRest (hI'.put hc) ((h'.weak.mput hc).back (put_self hc) ⟨?_, ?_, ?_, ?_⟩)
        · obtain ⟨q1, q2, q3, q4, q5, q6, q7, q8, q9, q10, q11, q12⟩ := hf.q
          refine ⟨?_, q2, q3, q4, ?_, fun _ => hst, q7, q8, q9, q10, q11, ?_⟩
          · simp only [U.put]; rw [h0]; rfl
          · simp
          · simp
        · intro _ hx
          replace hx : c.st = .inClose := hx
          rw [up_inClose hx] at hcu; cases hcu
        · simp
        · intro hn ho' _
          exact hf.ad hn ho' (.inr ⟨hin, hnsh⟩)
    · exact h'.dopRest hI'

theorem J.startCdop {s : U} {i : Nat} {c : C} (hz : s.ref ≠ 0) (h : J nc pr (some i) s) (hg : s.get i = some c) (hQ : Q s.ths i c)
    (hd : c.up = true → c.inRead = true → (s.owner = some i ∧ (s.nfd ≤ 1 → s.pend ≠ 0)) ∨ T.shutRh i ∈ s.ths)
    (had : nc = false → s.owner = some i → (s.pend ≠ 0 ∨ (c.inRead = true ∧ T.shutRh i ∉ s.ths)) → c.addr = s.cur) :
    ∃ t, Dgram.startCdop s i = some t ∧ J nc pr none t := by
  obtain ⟨hc, hgo⟩ := get_some.mp hg
  unfold Dgram.startCdop
  rw [hg, Option.bind_some]
  split
  · rename_i hx
    exact ⟨_, rfl, h.back hc ⟨hQ, fun _ _ => .inl hx, hd, had⟩⟩
  · obtain ⟨u, hu, hJ, he⟩ := h.ref hz
    rw [hu]
    refine ⟨_, rfl, ?_⟩
    subst he
    refine (hJ.mput (c' := { c with dop := true }) hc).back (put_self hc) ⟨?_, fun _ _ => .inl rfl, hd, had⟩
    obtain ⟨q1, q2, q3, q4, q5, q6, q7, q8, q9, q10, q11, q12⟩ := hQ
    exact ⟨q1, q2, q3, q4, q5, q6, q7, q8, q9, q10, q11, q12⟩

theorem J.opn {k : Nat} {s : U} {i : Nat} {done : Option Nat} (hI : I k s) (h : J nc pr none s) (hz : s.ref ≠ 0)
    (hcan : can s (.opn i done) = true) (hcalm : Calm s (.opn i done)) : ∃ t, Dgram.opn s i done = some t ∧ J nc pr none t := by
  cases hc : s.cs[i]? with
  | none => simp [can, hc] at hcan
  | some c =>
    have hfr : c.freed = false := by simpa [can, hc] using hcan
    have hcb := hcalm c hc
    have hf := h.full hc
    have hgo : c.gone = false := by
      cases hx : c.gone
      · rfl
      · rw [(hf.q.gn hx).1] at hfr; cases hfr
    unfold Dgram.opn
    rw [get_some.mpr ⟨hc, hgo⟩, Option.bind_some]
    split
    · exact ⟨_, rfl, h⟩
    · rename_i hn
      have hst : c.st = .closed := by
        cases hx : decide (c.st = .closed)
        · exact absurd (.inr (by simpa using hx)) hn
        · simpa using hx
      have hno := h.not_own hI hc (up_closed hst)
      have hb : ∀ b, c.inRead = b → c.inWrite = b → b = b := fun _ _ _ => rfl
      have hb1 : c.inRead = false := by cases hx : c.inRead; rfl; exact absurd hst (hf.q.busy (.inl hx))
      have hb3 : c.inOpenCb = false := by cases hx : c.inOpenCb; rfl; exact absurd hst (hf.q.busy (.inr (.inr hx)))
      dsimp only
      have hs := checkRead_sj { s with udpns := s.udpns ++ [i], rdCnt := s.rdCnt + 1 }
      have h1 : J nc pr (some i) (fdReadDisable { s with udpns := s.udpns ++ [i] }) := by
        unfold fdReadDisable
        refine J.check ?_
        obtain ⟨h1, h2, h3, h4, h5, h6, h7, h8, h9, h10⟩ := h.weak (e := some i)
        exact ⟨h1, h2, h3, h4, h5, fun j hj => List.mem_append_left _ (h6 j hj), h7, h8, h9, h10⟩
      have hc1 : (fdReadDisable { s with udpns := s.udpns ++ [i] }).cs[i]? = some c := by
        unfold fdReadDisable; rw [(checkRead_sj _).cs]; exact hc
      have h2 := h1.mput (c' := { c with st := .inOpen, openDone := done }) hc1
      have hz2 : ((fdReadDisable { s with udpns := s.udpns ++ [i] }).put i { c with st := .inOpen, openDone := done }).ref ≠ 0 := by
        show (fdReadDisable { s with udpns := s.udpns ++ [i] }).ref ≠ 0
        unfold fdReadDisable; rw [(checkRead_same _).ref]; exact hz
      have hQ : Q (fdReadDisable { s with udpns := s.udpns ++ [i] }).ths i { c with st := .inOpen, openDone := done } := by
        unfold fdReadDisable
        rw [(checkRead_sj _).ths]
        obtain ⟨q1, q2, q3, q4, q5, q6, q7, q8, q9, q10, q11, q12⟩ := hf.q
        refine ⟨q1, q2, q3, q4, q5, ?_, ?_, ?_, ?_, ?_, ?_, ?_⟩
        · simp
        · exact fun _ => hb3
        · simp [hcb]
        · simp [C.up]
        · simp [hfr]
        · intro hx; replace hx : c.gone = true := hx; rw [hgo] at hx; cases hx
        · simp [C.up]
      have hno2 : (fdReadDisable { s with udpns := s.udpns ++ [i] }).owner ≠ some i := by
        unfold fdReadDisable; rw [(checkRead_sj _).owner]; exact hno
      cases done with
      | none =>
        exact J.startCdop (c := { c with st := .inOpen, openDone := none }) hz2 h2 (get_some.mpr ⟨put_self hc1, hgo⟩) hQ (by simp [hb1]) (fun _ ho => absurd ho hno2)
      | some id =>
        exact J.startCdop (c := { c with st := .inOpen, openDone := some id }) hz2 h2.say (get_some.mpr ⟨put_self hc1, hgo⟩) hQ (by simp [hb1]) (fun _ ho => absurd ho hno2)

theorem J.startClose {k : Nat} {s : U} {i : Nat} {done : Option Nat} {c : C} {f : Bool} (hI : I k s) (h : J nc pr (some i) s) (hz : s.ref ≠ 0)
    (hg : s.get i = some c) (hu : c.up = true) (hf : Full nc pr s s.ths i { c with freed := f }) : ∃ t, Dgram.startClose s i done = some t ∧ J nc pr none t := by
  obtain ⟨hc, hgo⟩ := get_some.mp hg
  have hi : i ∈ s.udpns := (hI.mem i).mpr ⟨c, hc, hu⟩
  have hdm : c.defRead = true → s.owner = some i := by
    intro hx
    have hin : c.inRead = true := hf.q.dr hx
    rcases hf.d hu hin with y | y
    · exact y.1
    · have h0 := hf.q.rdn
      have : 0 < s.ths.countP (T.rdr i) := List.countP_pos_iff.mpr ⟨_, y, by simp [T.rdr]⟩
      simp only [hx, Bool.not_true, Bool.and_false, b2n_false] at h0
      omega
  unfold Dgram.startClose
  rw [hg, Option.bind_some]
  dsimp only
  have h1 : J nc pr (some i) (if s.owner = some i then { s with owner := none, pend := 0 } else s) := by
    split
    · rename_i ho; exact h.drop ho
    · exact h
  have hI1 : I k (if s.owner = some i then { s with owner := none, pend := 0 } else s) := by
    split
    · exact hI.same (by constructor <;> rfl)
    · exact hI
  have hno : (if s.owner = some i then { s with owner := none, pend := 0 } else s).owner ≠ some i := by
    split
    · simp
    · assumption
  have hcs : (if s.owner = some i then { s with owner := none, pend := 0 } else s).cs = s.cs := by split <;> rfl
  have hud : (if s.owner = some i then { s with owner := none, pend := 0 } else s).udpns = s.udpns := by split <;> rfl
  have hth : (if s.owner = some i then { s with owner := none, pend := 0 } else s).ths = s.ths := by split <;> rfl
  have hrf : (if s.owner = some i then { s with owner := none, pend := 0 } else s).ref = s.ref := by split <;> rfl
  generalize (if s.owner = some i then { s with owner := none, pend := 0 } else s) = u at h1 hI1 hno hcs hud hth hrf ⊢
  have hcu : u.cs[i]? = some c := by rw [hcs]; exact hc
  -- reads
  have hrd : ∃ v, (if c.rd then some u else Dgram.fdReadEnable u) = some v ∧ J nc pr (some i) v ∧ Sj u v ∧ v.ref = u.ref := by
    split
    · exact ⟨u, rfl, h1, by constructor <;> rfl, rfl⟩
    · rename_i hr
      have hpos : 0 < u.cs.countP C.mute := List.countP_pos_iff.mpr ⟨c, List.mem_of_getElem? hcu, by simp only [C.mute, hu, Bool.true_and]; simpa using hr⟩
      have := hI1.rdc
      unfold Dgram.fdReadEnable
      rw [if_neg (by omega)]
      have hsj : Sj u (checkRead { u with rdCnt := u.rdCnt - 1 }) := by
        have := checkRead_sj { u with rdCnt := u.rdCnt - 1 }
        obtain ⟨e1, e2, e3, e4, e5, e6, e7, e8, e9, e10, e11, e12, e13⟩ := this
        exact ⟨e1, e2, e3, e4, e5, e6, e7, e8, e9, e10, e11, e12, e13⟩
      exact ⟨_, rfl, h1.same hsj, hsj, (checkRead_same _).ref⟩
  obtain ⟨v, hv, hJv, hsv, hrv⟩ := hrd
  rw [hv, Option.bind_some]
  have hcv : v.cs[i]? = some c := by rw [hsv.cs]; exact hcu
  -- writes
  have hwr : ∃ w, (if c.wr then fdWriteDisable v else some v) = some w ∧ w.wrCnt + b2n c.wr = v.wrCnt ∧ w.cs = v.cs ∧ w.ths = v.ths ∧ w.owner = v.owner ∧ w.udpns = v.udpns ∧
      w.finished = v.finished ∧ w.cnt = v.cnt ∧ w.closed = v.closed ∧ w.freed = v.freed ∧ w.nfd = v.nfd ∧ w.pend = v.pend ∧ w.cur = v.cur ∧ w.log = v.log ∧ w.ref = v.ref := by
    cases hw : c.wr
    · exact ⟨v, rfl, rfl, rfl, rfl, rfl, rfl, rfl, rfl, rfl, rfl, rfl, rfl, rfl, rfl, rfl⟩
    · have hpos : 0 < v.cs.countP (·.wr) := List.countP_pos_iff.mpr ⟨c, List.mem_of_getElem? hcv, hw⟩
      have := hJv.wrc
      unfold fdWriteDisable
      rw [if_pos rfl, if_neg (by omega)]
      refine ⟨_, rfl, ?_, rfl, rfl, rfl, rfl, rfl, rfl, rfl, rfl, rfl, rfl, rfl, rfl, rfl⟩
      simp only [b2n_true]; omega
  obtain ⟨w, hw, hwc, w1, w2, w3, w4, w5, w6, w7, w8, w9, w10, w11, w12, w13⟩ := hwr
  rw [hw, Option.bind_some, if_neg (by rw [w4, hsv.udpns, hud]; simpa using hi)]
  have hcw : w.cs[i]? = some c := by rw [w1]; exact hcv
  have hnw : w.owner ≠ some i := by rw [w3, hsv.owner]; exact hno
  have hthw : w.ths = s.ths := by rw [w2, hsv.ths, hth]
  refine J.startCdop (c := { c with inRead := if s.owner = some i ∧ c.defRead then false else c.inRead, defRead := if s.owner = some i then false else c.defRead, closeDone := done, rd := false, wr := false, st := .inClose })
    ?_ ?_ (get_some.mpr ⟨put_self hcw, hgo⟩) ?_ ?_ ?_
  · show w.ref ≠ 0
    rw [w13, hrv, hrf]; exact hz
  · -- the others
    obtain ⟨h1, h2, h3, h4, h5, h6, h7, h8, h9, h10⟩ := hJv
    generalize hc'' : ({ c with inRead := if s.owner = some i ∧ c.defRead then false else c.inRead, defRead := if s.owner = some i then false else c.defRead, closeDone := done, rd := false, wr := false, st := .inClose } : C) = c'
    have hcw' : c'.wr = false := by rw [← hc'']
    have hca' : c'.addr = c.addr := by rw [← hc'']
    have hset : ∀ j : Nat, ({ w with udpns := w.udpns.erase i }.put i c').cs[j]? = if i = j then some c' else v.cs[j]? := by
      intro j
      have := put_get (s := { w with udpns := w.udpns.erase i }) (c' := c') (j := j) hcw
      rw [this]
      show (if i = j then some c' else w.cs[j]?) = _
      rw [w1]
    constructor
    · intro j d hj hn
      rw [hset, if_neg (fun x => hn (by rw [x]))] at hj
      show Q w.ths j d ∧ _
      rw [w2]; exact h1 j d hj hn
    · intro j d hj hn
      rw [hset, if_neg (fun x => hn (by rw [x]))] at hj
      show _ → _ → (w.owner = some j ∧ (w.nfd ≤ 1 → w.pend ≠ 0)) ∨ _ ∈ w.ths
      rw [w2, w3, w9, w10]; exact h2 j d hj hn
    · intro hnc j d hj hn
      rw [hset, if_neg (fun x => hn (by rw [x]))] at hj
      show w.owner = some j → (w.pend ≠ 0 ∨ (_ ∧ _ ∉ w.ths)) → d.addr = w.cur
      rw [w2, w3, w10, w11]; exact h3 hnc j d hj hn
    · intro t ht
      replace ht : t ∈ w.ths := ht
      rw [w2] at ht
      refine ⟨(h4 t ht).1, fun j hj => ?_⟩
      have := (h4 t ht).2 j hj
      show j < (w.cs.set i c').length
      rw [List.length_set, w1]; exact this
    · show w.wrCnt = (w.cs.set i c').countP (·.wr)
      have e1 := countP_set' (p := (·.wr)) (c' := c') hcw
      rw [hcw', w1] at e1
      rw [w1]
      simp only [b2n_false] at e1; omega
    · intro j hj
      replace hj : w.owner = some j := hj
      show j ∈ w.udpns.erase i
      have hne : j ≠ i := fun x => hnw (by rw [← x]; exact hj)
      rw [List.mem_erase_of_ne hne, w4]
      rw [w3] at hj; exact h6 j hj
    · show w.finished = true → w.cnt = 0 ∧ w.closed = true ∧ w.freed = true
      rw [w5, w6, w7, w8]; exact h7
    · show w.nfd ≤ 1 → w.ths.countP T.isRh ≤ 1
      rw [w9, w2]; exact h8
    · show w.nfd ≤ 1 → ∀ j, T.new j ∈ w.ths → w.pend = 0 ∨ w.owner = some j
      rw [w9, w2, w10, w3]; exact h9
    · intro hnc j a hm
      replace hm : Ev.read j a ∈ w.log := hm
      rw [w12] at hm
      obtain ⟨d, hd, hda⟩ := h10 hnc j a hm
      rw [hset]
      by_cases hij : i = j
      · subst hij
        rw [hcv] at hd; cases hd
        exact ⟨c', by simp, by rw [hca', hda]⟩
      · exact ⟨d, by rw [if_neg hij]; exact hd, hda⟩
  · show Q w.ths i _
    rw [hthw]
    obtain ⟨q1, q2, q3, q4, q5, q6, q7, q8, q9, q10, q11, q12⟩ := hf.q
    dsimp only at q1 q2 q3 q4 q5 q6 q7 q8 q9 q10 q11 q12
    have hnc : c.inCloseCb = false := by
      cases hx : c.inCloseCb
      · rfl
      · rw [up_closed (q8 hx)] at hu; cases hu
    have hdf : (if s.owner = some i then false else c.defRead) = false := by
      split
      · rfl
      · rename_i hx
        cases hy : c.defRead
        · rfl
        · exact absurd (hdm hy) hx
    refine ⟨?_, q2, q3, q4, ?_, ?_, ?_, ?_, ?_, ?_, ?_, ?_⟩
    · rw [q1]
      dsimp only
      rw [hdf]
      cases hx : c.defRead
      · simp
      · rw [hdm hx]; simp
    · dsimp only; rw [hdf]; simp
    · simp
    · simp
    · simp [hnc]
    · exact fun _ => rfl
    · exact fun _ => rfl
    · intro hx; replace hx : c.gone = true := hx; rw [hgo] at hx; cases hx
    · dsimp only; rw [hdf]; simp
  · intro hx; cases hx
  · intro _ ho; exact absurd ho hnw

theorem can_conn {s : U} {i : Nat} (h : (s.cs[i]?.any fun c => !c.freed) = true) : ∃ c, s.cs[i]? = some c ∧ c.freed = false := by
  cases hc : s.cs[i]? with
  | none => rw [hc] at h; cases h
  | some c => rw [hc] at h; exact ⟨c, rfl, by simpa using h⟩

theorem J.alive {s : U} {i : Nat} (h : J nc pr none s) (hcan : (s.cs[i]?.any fun c => !c.freed) = true) : ∃ c, s.get i = some c ∧ c.freed = false := by
  obtain ⟨c, hc, hfr⟩ := can_conn hcan
  refine ⟨c, get_some.mpr ⟨hc, ?_⟩, hfr⟩
  cases hx : c.gone
  · rfl
  · rw [((h.full hc).q.gn hx).1] at hfr; cases hfr

theorem J.close {k : Nat} {s : U} {i : Nat} {done : Option Nat} (hI : I k s) (h : J nc pr none s) (hz : s.ref ≠ 0)
    (hcan : (s.cs[i]?.any fun c => !c.freed) = true) : ∃ t, Dgram.close s i done = some t ∧ J nc pr none t := by
  obtain ⟨c, hg, hfr⟩ := h.alive hcan
  obtain ⟨hc, hgo⟩ := get_some.mp hg
  have hf := h.full hc
  unfold Dgram.close
  rw [hg, Option.bind_some]
  split
  · exact ⟨_, rfl, h⟩
  · rename_i hn
    have hu : c.up = true := by
      revert hn; unfold C.up; cases c.st <;> simp
    cases done with
    | none => exact J.startClose (f := c.freed) hI h.weak hz hg hu hf
    | some id => exact J.startClose (f := c.freed) (s := s.say (.close i id)) hI.say (h.weak.say) hz hg hu ⟨hf.q, hf.cl, hf.d, hf.ad⟩

theorem J.free {k : Nat} {s : U} {i : Nat} (hI : I k s) (h : J nc pr none s) (hz : s.ref ≠ 0)
    (hcan : (s.cs[i]?.any fun c => !c.freed) = true) : ∃ t, Dgram.free s i = some t ∧ J nc pr none t := by
  obtain ⟨c, hg, hfr⟩ := h.alive hcan
  obtain ⟨hc, hgo⟩ := get_some.mp hg
  have hf := h.full hc
  obtain ⟨u, hu, hJ, he⟩ := h.ref hz
  have hIu := hI.ref1 hu
  unfold Dgram.free
  rw [hu, Option.bind_some]
  subst he
  rw [show ({ s with ref := s.ref + 1 } : U).get i = some c from hg, Option.bind_some]
  dsimp only
  have h1 : J nc pr (some i) ((({ s with ref := s.ref + 1 } : U).put i { c with freed := true }).say (.free i)) := (hJ.weak.mput hc).say
  have hI1 : I (k + 1) ((({ s with ref := s.ref + 1 } : U).put i { c with freed := true }).say (.free i)) := (hIu.put hc).say
  have hc1 : ((({ s with ref := s.ref + 1 } : U).put i { c with freed := true }).say (.free i)).cs[i]? = some { c with freed := true } := put_self hc
  have hq : c.up = false → Q s.ths i { c with freed := true } := by
    intro hu
    obtain ⟨q1, q2, q3, q4, q5, q6, q7, q8, q9, q10, q11, q12⟩ := hf.q
    exact ⟨q1, q2, q3, q4, q5, q6, q7, q8, q9, fun _ => hu, (fun hx => by replace hx : c.gone = true := hx; rw [hgo] at hx; cases hx), q12⟩
  have key : ∃ t, (if c.st = .inClose then some (((({ s with ref := s.ref + 1 } : U).put i { c with freed := true }).say (.free i)).put i { c with freed := true, closeDone := none })
       else if c.st ≠ .closed then Dgram.startClose ((({ s with ref := s.ref + 1 } : U).put i { c with freed := true }).say (.free i)) i none
       else if !c.inCloseCb ∧ !c.dop then Dgram.finishFree ((({ s with ref := s.ref + 1 } : U).put i { c with freed := true }).say (.free i)) i
       else some ((({ s with ref := s.ref + 1 } : U).put i { c with freed := true }).say (.free i))) = some t ∧ J nc pr none t ∧ I (k + 1) t := by
    split
    · rename_i hst
      refine ⟨_, rfl, (h1.mput hc1).back (put_self hc1) ⟨?_, hf.cl, hf.d, hf.ad⟩, hI1.put hc1⟩
      obtain ⟨q1, q2, q3, q4, q5, q6, q7, q8, q9, q10, q11, q12⟩ := hq (up_inClose hst)
      exact ⟨q1, q2, q3, q4, q5, q6, q7, q8, q9, q10, q11, q12⟩
    · split
      · rename_i hn1 hn2
        have hup : c.up = true := by
          revert hn1 hn2; unfold C.up; cases c.st <;> simp
        obtain ⟨t, ht, hJt⟩ := J.startClose (f := c.freed) (done := none) hI1 h1 (by show s.ref + 1 ≠ 0; omega) (get_some.mpr ⟨hc1, hgo⟩) hup ⟨hf.q, hf.cl, hf.d, hf.ad⟩
        exact ⟨t, ht, hJt, hI1.startClose (get_some.mpr ⟨hc1, hgo⟩) hup ht⟩
      · rename_i hn1 hn2
        have hst : c.st = .closed := by simpa using hn2
        have h2 := h1.back hc1 ⟨hq (up_closed hst), hf.cl, hf.d, hf.ad⟩
        split
        · rename_i hx
          obtain ⟨t, ht, hJt⟩ := h2.finishFree hI1 (get_some.mpr ⟨hc1, hgo⟩) hst rfl (by simpa using hx.2) (by simpa using hx.1)
          exact ⟨t, ht, hJt, hI1.finishFree ht⟩
        · exact ⟨_, rfl, h2, hI1⟩
  obtain ⟨t, ht, hJt, hIt⟩ := key
  rw [ht, Option.bind_some]
  exact hJt.deref hIt

theorem J.setRead {k : Nat} {s : U} {i : Nat} {b : Bool} (hI : I k s) (h : J nc pr none s) (hz : s.ref ≠ 0)
    (hcan : (s.cs[i]?.any fun c => !c.freed) = true) : ∃ t, Dgram.setRead s i b = some t ∧ J nc pr none t := by
  obtain ⟨c, hg, hfr⟩ := h.alive hcan
  obtain ⟨hc, hgo⟩ := get_some.mp hg
  have hf := h.full hc
  unfold Dgram.setRead
  rw [hg, Option.bind_some]
  split
  · exact ⟨_, rfl, h⟩
  · rename_i hn
    have hu : c.up = true := by
      revert hn; unfold C.up; cases c.st <;> simp
    have hb : c.rd = !b := by
      revert hn; cases c.rd <;> cases b <;> simp
    have h0 : ¬ (b = true ∧ s.rdCnt = 0) := by
      rintro ⟨rfl, h0⟩
      have := hI.rdc
      have hpos : 0 < s.cs.countP C.mute := List.countP_pos_iff.mpr ⟨c, List.mem_of_getElem? hc, by simp [C.mute, hu, hb]⟩
      omega
    rw [if_neg h0]
    dsimp only
    have h' : J nc pr none { s with rdCnt := if b then s.rdCnt - 1 else s.rdCnt + 1 } := h.same (by constructor <;> rfl)
    have hkeep : J nc pr none (({ s with rdCnt := if b then s.rdCnt - 1 else s.rdCnt + 1 } : U).put i { c with rd := b }) := by
      refine (h'.weak.mput hc).back (put_self hc) ⟨?_, hf.cl, hf.d, hf.ad⟩
      obtain ⟨q1, q2, q3, q4, q5, q6, q7, q8, q9, q10, q11, q12⟩ := hf.q
      exact ⟨q1, q2, q3, q4, q5, q6, q7, q8, q9, q10, q11, q12⟩
    split
    · exact ⟨_, rfl, hkeep⟩
    · rename_i hne
      split
      · rename_i hx
        obtain ⟨-, hp, ho⟩ := hx
        have hin : c.inRead = false := by cases hy : c.inRead; rfl; exact absurd (.inl hy) hne
        have hst : c.st ≠ .closed := fun x => by rw [up_closed x] at hu; cases hu
        refine J.startDop hz ((h'.weak.mput hc).back (put_self hc) ⟨?_, ?_, ?_, ?_⟩)
        · obtain ⟨q1, q2, q3, q4, q5, q6, q7, q8, q9, q10, q11, q12⟩ := hf.q
          refine ⟨?_, q2, q3, q4, ?_, ?_, q7, q8, q9, q10, q11, ?_⟩
          · simp only [U.put]; rw [q1, hin]; simp
          · simp
          · exact fun _ => hst
          · exact fun _ => hu
        · exact fun _ _ => .inr (.inl rfl)
        · exact fun _ _ => .inl ⟨ho, fun _ => hp⟩
        · exact fun hn ho' _ => hf.ad hn ho' (.inl hp)
      · exact ⟨_, rfl, hkeep.check⟩

theorem J.setWrite {s : U} {i : Nat} {b : Bool} (h : J nc pr none s)
    (hcan : (s.cs[i]?.any fun c => !c.freed) = true) (hcalm : Calm s (.setWrite i b)) : ∃ t, Dgram.setWrite s i b = some t ∧ J nc pr none t := by
  obtain ⟨c, hg, hfr⟩ := h.alive hcan
  obtain ⟨hc, hgo⟩ := get_some.mp hg
  have hf := h.full hc
  unfold Dgram.setWrite
  rw [hg, Option.bind_some]
  split
  · exact ⟨_, rfl, h⟩
  · rename_i hn
    dsimp only
    rw [if_neg (hcalm c hc)]
    have hu : c.up = true := by
      revert hn; unfold C.up; cases c.st <;> simp
    have hb : c.wr = !b := by
      revert hn; cases c.wr <;> cases b <;> simp
    have key : ∀ t : U, t.wrCnt + b2n c.wr = s.wrCnt + b2n b → t.cs = s.cs.set i { c with wr := b } → t.ths = s.ths → t.owner = s.owner → t.udpns = s.udpns →
        t.finished = s.finished → t.cnt = s.cnt → t.closed = s.closed → t.freed = s.freed → t.nfd = s.nfd → t.pend = s.pend → t.cur = s.cur → t.log = s.log →
        J nc pr none t := by
      intro t e1 e2 e3 e4 e5 e6 e7 e8 e9 e10 e11 e12 e13
      obtain ⟨h1, h2, h3, h4, h5, h6, h7, h8, h9, h10⟩ := h
      have hset : ∀ j : Nat, t.cs[j]? = if i = j then some { c with wr := b } else s.cs[j]? := by
        intro j; rw [e2]; exact put_get (s := s) hc
      constructor
      · intro j d hj _
        rw [hset] at hj
        rw [e3]
        split at hj
        · cases hj
          rename_i hij; subst hij
          obtain ⟨q1, q2, q3, q4, q5, q6, q7, q8, q9, q10, q11, q12⟩ := hf.q
          refine ⟨⟨q1, q2, q3, q4, q5, q6, q7, q8, ?_, q10, q11, q12⟩, hf.cl⟩
          intro hx; replace hx : c.up = false := hx; rw [hu] at hx; cases hx
        · exact h1 j d hj (by simp)
      · intro j d hj _
        rw [hset] at hj
        rw [e3, e4, e10, e11]
        split at hj
        · cases hj
          rename_i hij; subst hij
          exact hf.d
        · exact h2 j d hj (by simp)
      · intro hnc j d hj _
        rw [hset] at hj
        rw [e3, e4, e11, e12]
        split at hj
        · cases hj
          rename_i hij; subst hij
          exact hf.ad hnc
        · exact h3 hnc j d hj (by simp)
      · intro u hu
        rw [e3] at hu
        refine ⟨(h4 u hu).1, fun j hj => ?_⟩
        rw [e2, List.length_set]; exact (h4 u hu).2 j hj
      · have e := countP_set' (p := (·.wr)) (c' := { c with wr := b }) hc
        rw [e2]; dsimp only at e; omega
      · rw [e4, e5]; exact h6
      · rw [e6, e7, e8, e9]; exact h7
      · rw [e10, e3]; exact h8
      · rw [e10, e3, e11, e4]; exact h9
      · intro hnc j a hm
        rw [e13] at hm
        obtain ⟨d, hd, hda⟩ := h10 hnc j a hm
        rw [hset]
        by_cases hij : i = j
        · subst hij
          rw [hc] at hd; cases hd
          exact ⟨{ c with wr := b }, by simp, hda⟩
        · exact ⟨d, by rw [if_neg hij]; exact hd, hda⟩
    split
    · rename_i hbt
      refine ⟨_, rfl, key _ ?_ rfl rfl rfl rfl rfl rfl rfl rfl rfl rfl rfl rfl⟩
      rw [hb, hbt]; rfl
    · rename_i hbf
      replace hbf : b = false := by simpa using hbf
      subst hbf
      have hpos : 0 < s.cs.countP (·.wr) := List.countP_pos_iff.mpr ⟨c, List.mem_of_getElem? hc, hb⟩
      have hw := h.wrc
      unfold fdWriteDisable
      rw [if_neg (by show s.wrCnt ≠ 0; omega)]
      refine ⟨_, rfl, key _ ?_ rfl rfl rfl rfl rfl rfl rfl rfl rfl rfl rfl rfl⟩
      rw [hb]
      simp only [U.put, Bool.not_false, b2n_true, b2n_false]; omega

theorem J.shutdown {s : U} {done : Option Nat} (h : J nc pr none s) (hz : s.ref ≠ 0) : ∃ t, Dgram.shutdown s done = some t ∧ J nc pr none t := by
  unfold Dgram.shutdown
  split
  · have h' : J nc pr none { s with enabled := false, inShut := true, closed := true, shutDone := done } := by
      obtain ⟨h1, h2, h3, h4, h5, h6, h7, h8, h9, h10⟩ := h
      exact ⟨h1, h2, h3, h4, h5, h6, fun hx => ⟨(h7 hx).1, rfl, (h7 hx).2.2⟩, h8, h9, h10⟩
    cases done with
    | none =>
      dsimp only
      split
      · exact ⟨_, rfl, h'⟩
      · exact h'.startDop hz
    | some id =>
      dsimp only
      split
      · exact ⟨_, rfl, h'.say⟩
      · exact h'.say.startDop hz
  · exact ⟨_, rfl, h⟩

theorem J.enRef {v : U} (h : J nc pr none v) (hz : v.ref ≠ 0) :
    ∃ t, ((Dgram.ref v).map fun s => if s.enRun then { s with lost := s.lost + 1 } else { s with enRun := true }) = some t ∧ J nc pr none t := by
  obtain ⟨u, hu, hJ, he⟩ := h.ref hz
  rw [hu, Option.map_some]
  refine ⟨_, rfl, ?_⟩
  split
  · exact hJ.same (by constructor <;> rfl)
  · exact hJ.same (by constructor <;> rfl)

theorem J.setEnable {s : U} {b : Bool} {done : Option Nat} (h : J nc pr none s) (hz : s.ref ≠ 0) : ∃ t, Dgram.setEnable s b done = some t ∧ J nc pr none t := by
  unfold Dgram.setEnable
  split
  · exact ⟨_, rfl, h⟩
  · have h' : J nc pr none { s with enabled := b, enDone := done } := h.same (by constructor <;> rfl)
    cases done with
    | none =>
      dsimp only
      split
      · exact ⟨_, rfl, h'⟩
      · exact h'.enRef hz
    | some id =>
      dsimp only
      split
      · exact ⟨_, rfl, h'.say⟩
      · exact h'.say.enRef hz

theorem J.enOp {k : Nat} {s : U} (hI : I k s) (h : J nc pr none s) (hd : s.enRun = true) : ∃ t, Dgram.enOp s = some t ∧ J nc pr none t := by
  have hI' : I (k + 1) { s with enRun := false } := by
    obtain ⟨h1, h2, h3, h4, h5, h6, h7, h8, h9, h10⟩ := hI
    refine ⟨?_, h2, h3, h4, h5, h6, h7, h8, h9, h10⟩
    rw [hd] at h1
    simp only [b2n_true, b2n_false] at h1 ⊢; omega
  have h' : J nc pr none { s with enRun := false } := h.same (by constructor <;> rfl)
  unfold Dgram.enOp
  dsimp only
  split
  · refine ⟨_, rfl, J.call0 (J.say (h.same ?_)) rfl rfl⟩
    constructor <;> rfl
  · exact h'.deref hI'

theorem J.accFree {k : Nat} {s : U} (hI : I k s) (h : J nc pr none s) (hz : s.ref ≠ 0) (hcan : s.freed = false) : ∃ t, Dgram.accFree s = some t ∧ J nc pr none t := by
  obtain ⟨u, hu, hJ, he⟩ := h.ref hz
  have hIu := hI.ref1 hu
  unfold Dgram.accFree
  rw [hcan, if_neg (by simp), hu, Option.bind_some]
  have hI2 : I (k + 1) { u with enabled := false, closed := true, freed := true } := hIu.same (by constructor <;> rfl)
  have hJ2 : J nc pr none { u with enabled := false, closed := true, freed := true } := by
    obtain ⟨h1, h2, h3, h4, h5, h6, h7, h8, h9, h10⟩ := hJ
    exact ⟨h1, h2, h3, h4, h5, h6, fun hx => ⟨(h7 hx).1, rfl, rfl⟩, h8, h9, h10⟩
  obtain ⟨t, ht, hJt⟩ := hJ2.checkFinish hI2
  rw [ht, Option.bind_some]
  exact hJt.deref (hI2.checkFinish ht)

theorem J.strTo {k : Nat} {s : U} {a : Nat} (hI : I k s) (h : J nc pr none s) (hz : s.ref ≠ 0) (hcan : s.freed = false) : ∃ t, Dgram.strTo s a = some t ∧ J nc pr none t := by
  unfold Dgram.strTo
  split
  · exact ⟨_, rfl, h⟩
  · have hfin : s.finished = false := by
      cases hx : s.finished
      · rfl
      · rw [(h.fin hx).2.2] at hcan; cases hcan
    have hlt : ∀ t ∈ s.ths, ∀ j, t.ix = some j → j < s.cs.length := fun t ht => (h.ix t ht).2
    have hq := C.new_q (a := a) hlt
    have hown : s.owner ≠ some s.cs.length := by
      intro hx
      obtain ⟨d, hd, _⟩ := (hI.mem _).mp (h.own _ hx)
      simp at hd
    have h1 : J nc pr (some s.cs.length) { s with cs := s.cs ++ [{ C.new a with client := true }], cnt := s.cnt + 1 } :=
      h.add (c := { C.new a with client := true }) rfl rfl rfl rfl rfl (.inl rfl) hfin rfl rfl rfl rfl rfl
    have hcnew : (s.cs ++ [{ C.new a with client := true }])[s.cs.length]? = some { C.new a with client := true } := by simp
    refine J.startCdop (c := { C.new a with client := true }) hz h1 (get_some.mpr ⟨hcnew, rfl⟩) ⟨?_, ?_, ?_, ?_, ?_, ?_, ?_, ?_, ?_, ?_, ?_, ?_⟩ ?_ ?_
    · rw [hq _ (by simp)]; simp [C.new]
    · rw [hq _ (by simp)]; simp [C.new]
    · rw [hq _ (by simp)]; simp [C.new]
    · rw [hq _ (by simp)]; simp [C.new]
    · simp [C.new]
    · simp [C.new]
    · simp [C.new]
    · simp [C.new]
    · simp [C.new]
    · simp [C.new]
    · simp [C.new]
    · simp [C.new]
    · simp [C.new]
    · exact fun _ ho => absurd ho hown

end
end Gensio.Dgram
