import Verif.Lemmas.Ax25Own
import Verif.Model.Ax25Pair

namespace Gensio.Ax25

/-- What goes from a station with the packets `W` and the frames `out` to a station with `back` on its way back. -/
structure Dir (m : Nat) (W : List Pkt) (A : Nat) (out back : List Frame) (V R : Nat) (q got : List (UInt8 × UInt8)) (live : Bool) : Prop where
  io : IOk m W R out
  ak : AckOk m V A back
  vr : V ≤ R
  wb : W.length < R + m
  gl : live = true → got ++ q = flat (W.take R)
  gp : (got ++ q) <+: flat (W.take R)

structure One (m : Nat) (ph : Ph) (W : List Pkt) (A V R : Nat) (q : List (UInt8 × UInt8)) (s : Side) : Prop where
  safe : Safe s.c
  k : K m ph W A V R q s.c
  fr : ∀ f ∈ s.out, frAllowed m ph f
  sent : s.sent = flat W

/-- What is kept of two stations. -/
def Both (m : Nat) (a b : Side) : Prop :=
  ∃ pa pb Wa Wb Aa Ab Va Vb Ra Rb qa qb, PhOk pa pb ∧ One m pa Wa Aa Va Ra qa a ∧ One m pb Wb Ab Vb Rb qb b ∧
    Dir m Wa Aa a.out b.out Vb Rb qb b.got b.c.inChans ∧ Dir m Wb Ab b.out a.out Va Ra qa a.got a.c.inChans

theorem Both.symm {m a b} (h : Both m a b) : Both m b a := by
  obtain ⟨pa, pb, Wa, Wb, Aa, Ab, Va, Vb, Ra, Rb, qa, qb, h1, h2, h3, h4, h5⟩ := h
  exact ⟨pb, pa, Wb, Wa, Ab, Aa, Vb, Va, Rb, Ra, qb, qa, h1.symm, h3, h2, h5, h4⟩

theorem Both.lose {m a b} (h : Both m a b) (i : Nat) : Both m { a with out := a.out.eraseIdx i } b := by
  obtain ⟨pa, pb, Wa, Wb, Aa, Ab, Va, Vb, Ra, Rb, qa, qb, h1, h2, h3, h4, h5⟩ := h
  refine ⟨pa, pb, Wa, Wb, Aa, Ab, Va, Vb, Ra, Rb, qa, qb, h1, ⟨h2.safe, h2.k, fun f hf => h2.fr f (List.mem_of_mem_eraseIdx hf), h2.sent⟩, h3, ?_, ?_⟩
  · exact ⟨h4.io.lose i, h4.ak, h4.vr, h4.wb, h4.gl, h4.gp⟩
  · exact ⟨h5.io, h5.ak.lose i, h5.vr, h5.wb, h5.gl, h5.gp⟩

theorem inChans_readExit (c : Chan) : (readExit c).inChans = c.inChans := by
  have := congrArg Chan.inChans (core_readExit c); exact this

theorem inChans_readLoop (c : Chan) : (readLoop c).inChans = c.inChans := by
  unfold readLoop
  repeat' split
  · exact inChans_readExit _
  · rfl
  · exact inChans_readExit _
  · exact inChans_readExit _

theorem readRet_out {c c' : Chan} {r o} (hi : c.inChans = false) (e : readRet c r = some (c', o)) : c'.inChans = false := by
  unfold readRet at e
  split at e
  · cases e
  · split at e
    · split at e
      · rename_i er _
        have : doErrClose { c with err := er } = none := by
          unfold doErrClose moveToClosed
          split <;> simp [hi]
        rw [this] at e; cases e
      · cases e; exact (inChans_readExit _).trans hi
    · split at e
      · cases e
      · split at e
        · cases e; exact (inChans_readLoop _).trans hi
        · cases e; exact (inChans_readLoop _).trans hi

/-- Something that can happen to one station: its queue `q` and what it has taken stay in order, and it acknowledges no less. -/
def Upd (m : Nat) (ph : Ph) (W : List Pkt) (A V R : Nat) (q got : List (UInt8 × UInt8)) (live : Bool) (c' : Chan) (got' : List (UInt8 × UInt8)) : Prop :=
  ∃ V' q', K m ph W A V' R q' c' ∧ V ≤ V' ∧ V' ≤ R ∧ (c'.inChans = true → live = true ∧ got' ++ q' = got ++ q) ∧ (got' ++ q') <+: (got ++ q)

theorem Upd.same {m ph W A V R q got live} {c' : Chan} (hv : V ≤ R) (hk : K m ph W A V R q c') (hl : c'.inChans = true → live = true) :
    Upd m ph W A V R q got live c' got :=
  ⟨V, q, hk, Nat.le_refl _, hv, fun h => ⟨hl h, rfl⟩, List.prefix_rfl⟩

theorem Both.upd {m a b pa pb Wa Wb Aa Ab Va Vb Ra Rb qa qb} (h1 : PhOk pa pb) (h2 : One m pa Wa Aa Va Ra qa a) (h3 : One m pb Wb Ab Vb Rb qb b)
    (h4 : Dir m Wa Aa a.out b.out Vb Rb qb b.got b.c.inChans) (h5 : Dir m Wb Ab b.out a.out Va Ra qa a.got a.c.inChans)
    {c' : Chan} {got'} (hs : Safe c') (hu : Upd m pa Wa Aa Va Ra qa a.got a.c.inChans c' got') {L : List Frame}
    (hL : L = [] ∨ ∃ f, L = [f] ∧ frAllowed m pa f ∧ NewOk m Wa Va f) : Both m { a with c := c', got := got', out := a.out ++ L } b := by
  obtain ⟨V', q', k1, k2, k3, k4, k5⟩ := hu
  refine ⟨pa, pb, Wa, Wb, Aa, Ab, V', Vb, Ra, Rb, q', qb, h1, ⟨hs, k1, ?_, h2.sent⟩, h3, ⟨?_, h4.ak, h4.vr, h4.wb, h4.gl, h4.gp⟩,
    ⟨h5.io, ?_, k3, h5.wb, fun hl => (k4 hl).2.trans (h5.gl (k4 hl).1), List.IsPrefix.trans k5 h5.gp⟩⟩
  · intro f hf
    rcases List.mem_append.1 hf with hf | hf
    · exact h2.fr f hf
    · rcases hL with rfl | ⟨f', rfl, h, _⟩
      · simp at hf
      · rw [List.mem_singleton.1 hf]; exact h
  · rcases hL with rfl | ⟨f', rfl, _, h⟩
    · simpa using h4.io
    · exact h4.io.snoc h
  · rcases hL with rfl | ⟨f', rfl, _, h⟩
    · simpa using h5.ak.up k2
    · exact (h5.ak.snoc h).up k2

theorem flat_snoc (W : List Pkt) (p : Pkt) : flat (W ++ [p]) = flat W ++ p.2.map (p.1, ·) := by
  unfold flat; simp

theorem Safe.outState {c : Chan} (h : Safe c) (hi : c.inChans = false) : c.state = .closed ∨ c.state = .reportClose ∨ c.state = .ioErr := by
  have := h.live
  rw [hi] at this
  cases hs : c.state <;> simp [hs] at this ⊢

/-- An event of a station: what it does to the channel, but for the data of a write. -/
theorem own_upd {m ph W A V R q} {a a' : Side} {ev : Ev} (hm : m = 8 ∨ m = 128) (h : One m ph W A V R q a) (hv : V ≤ R)
    (hb : Benign a.c ev) (hw : ∀ sg pid, ev ≠ .write sg pid) (e : own a ev = some a') :
    ∃ L, a' = { a with c := a'.c, got := a'.got, out := a.out ++ L } ∧ Upd m ph W A V R q a.got a.c.inChans a'.c a'.got ∧
      (L = [] ∨ ∃ f, L = [f] ∧ frAllowed m ph f ∧ NewOk m W V f) := by
  obtain ⟨hs, hk, hfr, hsent⟩ := h
  -- an event that is only a step
  have stp : ∀ (o : Option Chan), o.map (fun c => { a with c := c }) = some a' → (∀ c', o = some c' → K m ph W A V R q c' ∧ (c'.inChans = true → a.c.inChans = true)) →
      ∃ L, a' = { a with c := a'.c, got := a'.got, out := a.out ++ L } ∧ Upd m ph W A V R q a.got a.c.inChans a'.c a'.got ∧
        (L = [] ∨ ∃ f, L = [f] ∧ frAllowed m ph f ∧ NewOk m W V f) := by
    intro o ho hc
    cases o with
    | none => cases ho
    | some c' =>
      cases ho
      obtain ⟨h1, h2⟩ := hc c' rfl
      exact ⟨[], by simp, .same hv h1 h2, .inl rfl⟩
  have live : ∀ {c' : Chan}, (a.c.inChans = false → c' = a.c) → c'.inChans = true → a.c.inChans = true := by
    intro c' h hi
    cases hc : a.c.inChans with
    | true => rfl
    | false => rw [h hc, hc] at hi; exact hi
  have live' : ∀ {c' : Chan}, (a.c.inChans = false → c'.inChans = false) → c'.inChans = true → a.c.inChans = true := by
    intro c' h hi
    cases hc : a.c.inChans with
    | true => rfl
    | false => rw [h hc] at hi; exact hi
  cases ev with
  | rx f => cases e
  | write sg pid => exact absurd rfl (hw sg pid)
  | tx r =>
    cases hx : tx a.c r with
    | none => simp [own, hx] at e
    | some x =>
      obtain ⟨c', o⟩ := x
      simp only [own, hx, Option.map_some, Option.some.injEq] at e
      subst e
      obtain ⟨k1, k2⟩ := tx_keep hs hk hx
      refine ⟨o.toList, rfl, .same hv k1 (live fun hi => ?_), ?_⟩
      · unfold tx at hx; rw [if_pos hi] at hx; cases hx; rfl
      · cases o with
        | none => exact .inl rfl
        | some f => exact .inr ⟨f, rfl, k2 f rfl⟩
  | readEn b => exact stp (some { a.c with readEnabled := b }) e fun c' hc => by cases hc; exact ⟨hk.same rfl rfl, id⟩
  | deferred =>
    obtain ⟨V', k1, k2, k3, k4⟩ := deferred_keep hm hk hv
    simp only [own, step, Option.map_some, Option.some.injEq] at e
    subst e
    exact ⟨[], by simp, ⟨V', q, k3, k1, k2, fun h => ⟨k4 ▸ h, rfl⟩, List.prefix_rfl⟩, .inl rfl⟩
  | readRet r =>
    cases hx : readRet a.c r with
    | none => simp [own, hx] at e
    | some x =>
      obtain ⟨c', o⟩ := x
      simp only [own, hx, Option.map_some, Option.some.injEq] at e
      subst e
      obtain ⟨_, V', q', k1, k2, k3, k4⟩ := readRet_keep hm hs hk hv hx
      have hq : (a.got ++ o) ++ q' = a.got ++ q := by rw [k4, List.append_assoc]
      refine ⟨[], by simp, ⟨V', q', k3, k1, k2, fun h => ⟨live' (fun hi => readRet_out hi hx) h, hq⟩, ?_⟩, .inl rfl⟩
      show ((a.got ++ o) ++ q') <+: _
      rw [hq]; exact List.prefix_rfl
  | t1 =>
    refine stp _ e fun c' hc => ⟨t1_keep hm hs hk hc, live fun hi => ?_⟩
    simp only [step, t1] at hc
    rcases hs.outState hi with h | h | h <;> rw [h] at hc <;> cases hc <;> rfl
  | t2 =>
    refine stp (some (t2 a.c)) e fun c' hc => ?_
    cases hc
    refine ⟨t2_keep hk, live fun hi => ?_⟩
    unfold t2
    rcases hs.outState hi with h | h | h <;> rw [h]
  | t3 =>
    refine stp (some (t3 a.c)) e fun c' hc => ?_
    cases hc
    refine ⟨t3_keep hk, live fun hi => ?_⟩
    unfold t3
    rcases hs.outState hi with h | h | h <;> rw [h]
  | close =>
    refine stp _ e fun c' hc => ?_
    simp only [step] at hc
    cases hx : close a.c with
    | none => rw [hx] at hc; cases hc
    | some x =>
      obtain ⟨c1, n⟩ := x
      rw [hx] at hc; cases hc
      refine ⟨close_keep hs hk hx, live' fun hi => ?_⟩
      unfold close at hx
      rcases hs.outState hi with h | h | h <;> rw [h] at hx <;> cases hx <;> exact hi
  | fin =>
    simp only [own, step, Option.map_some, Option.some.injEq] at e
    subst e
    rcases fin_keep hs hk with h | ⟨h1, h2⟩
    · refine ⟨[], by simp, .same hv h (live' fun hi => ?_), .inl rfl⟩
      show (fin a.c).inChans = false
      unfold fin; split
      · exact hi
      · exact hi
    · refine ⟨[], by simp, ⟨V, [], h2, Nat.le_refl _, hv, fun h => ?_, ?_⟩, .inl rfl⟩
      · have : (fin a.c).inChans = true := h
        rw [h1] at this; cases this
      · show (a.got ++ []) <+: _
        rw [List.append_nil]; exact List.prefix_append _ _
  | childErr n =>
    refine stp _ e fun c' hc => ⟨childErr_keep hk hc, live fun hi => ?_⟩
    simp only [step, childErr, hi] at hc
    cases hc; rfl

theorem own_safe {a a' : Side} {ev : Ev} (hs : Safe a.c) (hp : possible a.c ev = true) (hb : Benign a.c ev) (e : own a ev = some a') : Safe a'.c := by
  obtain ⟨c', h1, h2⟩ := step_safe hs hp hb
  have : step a.c ev = some a'.c := by
    have map1 : ∀ {α : Type} {o : Option α} {F : α → Side} {G : α → Chan}, (∀ x, (F x).c = G x) → o.map F = some a' → o.map G = some a'.c := by
      intro α o F G h he
      cases o with
      | none => cases he
      | some x => cases he; exact congrArg some (h x).symm
    have map0 : ∀ {o : Option Chan}, o.map (fun c => { a with c := c }) = some a' → o = some a'.c := by
      intro o he
      cases o with
      | none => cases he
      | some x => cases he; rfl
    cases ev with
    | rx f => cases e
    | write sg pid => exact map1 (fun _ => rfl) e
    | tx r => exact map1 (fun _ => rfl) e
    | readRet r => exact map1 (fun _ => rfl) e
    | _ => exact map0 e
  rw [this] at h1; cases h1; exact h2

theorem Both.own {m a a' b} {ev : Ev} (hm : m = 8 ∨ m = 128) (h : Both m a b) (hp : possible a.c ev = true) (hb : Benign a.c ev) (e : own a ev = some a') :
    Both m a' b := by
  obtain ⟨pa, pb, Wa, Wb, Aa, Ab, Va, Vb, Ra, Rb, qa, qb, h1, h2, h3, h4, h5⟩ := h
  have hs' := own_safe h2.safe hp hb e
  by_cases hw : ∃ sg pid, ev = .write sg pid
  · obtain ⟨sg, pid, rfl⟩ := hw
    cases hx : write a.c sg pid with
    | none => simp [Ax25.own, hx] at e
    | some x =>
      obtain ⟨c', er, n⟩ := x
      simp only [Ax25.own, hx, Option.map_some, Option.some.injEq] at e
      subst e
      rcases write_keep hm h2.safe h2.k hb hx with ⟨rfl, rfl⟩ | ⟨hi, hk⟩
      · have := Both.upd h1 h2 h3 h4 h5 (c' := a.c) (got' := a.got) (L := []) h2.safe (.same h5.vr h2.k id) (.inl rfl)
        simpa using this
      · have hi' : c'.inChans = true := hs'.live.2 (by
          have hst : a.c.state = .opn := by
            cases hst : a.c.state <;> first | rfl | skip
            all_goals (exfalso; unfold write at hx; dsimp only at hx; rw [if_pos (by rw [hst]; simp)] at hx; cases hx
                       have h7 := (hk.live hi).vs; have h8 := (h2.k.live hi).vs
                       have h9 := (hk.live hi).ack; have h10 := (h2.k.live hi).wlm; have h11 := (hk.live hi).wlm
                       rw [h8, List.length_append, List.length_singleton] at h7
                       have := mod_inj h7 (by omega) (by omega); omega)
          show c'.state ≠ _ ∧ c'.state ≠ _ ∧ c'.state ≠ _
          have : c'.state = a.c.state := by
            unfold write at hx; dsimp only at hx
            repeat' split at hx
            all_goals first | (cases hx; rfl) | cases hx
          rw [this, hst]; simp)
        have hl := hk.live hi'
        refine ⟨pa, pb, Wa ++ [(pid, sg.flatten.take n)], Wb, Aa, Ab, Va, Vb, Ra, Rb, qa, qb, h1, ⟨hs', hk, h2.fr, ?_⟩, h3, ⟨h4.io.grow _, h4.ak, h4.vr, ?_, ?_, ?_⟩,
          ⟨h5.io, h5.ak, h5.vr, h5.wb, fun hl => h5.gl hi, h5.gp⟩⟩
        · show a.sent ++ _ = _
          rw [flat_snoc, h2.sent]
        · have b1 := hl.ack; have b2 := hl.wlm; have b3 := h4.ak.le; have b4 := h4.vr
          omega
        · rw [List.take_append_of_le_length h4.io.le]; exact h4.gl
        · rw [List.take_append_of_le_length h4.io.le]; exact h4.gp
  · obtain ⟨L, k1, k2, k3⟩ := own_upd hm h2 h5.vr hb (fun sg pid h => hw ⟨sg, pid, h⟩) e
    rw [k1]
    exact Both.upd h1 h2 h3 h4 h5 hs' k2 k3

theorem take_succ_flat {W : List Pkt} {k : Nat} {p : Pkt} (h : W[k]? = some p) : flat (W.take (k + 1)) = flat (W.take k) ++ p.2.map (p.1, ·) := by
  rw [List.take_add_one, h]
  exact flat_snoc _ _

theorem Both.recv {m a b} {fr : Frame} {L : List Frame} {c' : Chan} (hm : m = 8 ∨ m = 128) (h : Both m a b) (hb : b.out = fr :: L)
    (hp : possible a.c (.rx fr) = true) (e : rx a.c fr = some c') : Both m { a with c := c' } { b with out := L } := by
  obtain ⟨pa, pb, Wa, Wb, Aa, Ab, Va, Vb, Ra, Rb, qa, qb, h1, h2, h3, h4, h5⟩ := h
  have hfr : frAllowed m pb fr := h3.fr fr (by rw [hb]; simp)
  have hak := h4.ak
  have hio := h5.io
  rw [hb] at hak hio
  have hAW : ∀ {x}, x ≤ Vb → x ≤ Wa.length := fun hx => by have := h4.vr; have := h4.io.le; omega
  -- the frame acknowledges a' packets and is for packet k
  obtain ⟨A', k, p, s', a1, a2, a3, a4, a5, a6, a7, a8⟩ : ∃ A' k p s', Aa ≤ A' ∧ AckOk m Vb A' L ∧ InOk m A' k p fr ∧ k < Ra + m ∧
      ((∃ nr ns pf ic b, fr = .info nr ns pf ic b) → Ra < k + m) ∧ IOk m Wb s' L ∧ Ra ≤ s' ∧
      ((∃ nr ns pf ic b, fr = .info nr ns pf ic b) → k < s' ∧ Wb[k]? = some p) := by
    have hmp : 0 < m := by omega
    cases fr with
    | info nr ns pf ic body =>
      obtain ⟨A', b1, b2, b3, b4⟩ := hak
      obtain ⟨k, s', p, c1, c2, c3, c4, c5, c6, c7, c8⟩ := hio
      have := h5.wb
      exact ⟨A', k, p, s', b1, b4, ⟨b3, c5, c7⟩, by omega, fun _ => by omega, c8, c1, fun _ => ⟨c2, c6⟩⟩
    | sup s nr pf ic =>
      obtain ⟨A', b1, b2, b3, b4⟩ := hak
      exact ⟨A', Ra, (0, []), Ra, b1, b4, b3, by omega, (by rintro ⟨_, _, _, _, _, h⟩; cases h), hio, Nat.le_refl _, (by rintro ⟨_, _, _, _, _, h⟩; cases h)⟩
    | unn u pf ic body =>
      exact ⟨Aa, Ra, (0, []), Ra, Nat.le_refl _, hak, trivial, by omega, (by rintro ⟨_, _, _, _, _, h⟩; cases h), hio, Nat.le_refl _, (by rintro ⟨_, _, _, _, _, h⟩; cases h)⟩
  have hs' : Safe c' := by
    obtain ⟨x, x1, x2⟩ := rx_safe h2.safe (f := fr) (by simp only [possible, Bool.and_eq_true] at hp; exact hp.1) (by
      intro pf ic bd c1 hf hc
      subst hf
      obtain ⟨_, _, g, g1, g2, rfl⟩ := hfr
      exact WinOk_gensio h2.safe g1 g2 pf ic pf ic _ c1 rfl hc)
    rw [e] at x1; cases x1; exact x2
  obtain ⟨ph', V', R', q', r1, r2, r3, r4, r5⟩ := rx_keep hm h2.safe (h2.k.more a1) h1 hfr a3 (hAW a2.le) h5.vr hp a4 a5 e
  have hin : c'.inChans = true → a.c.inChans = true := by
    intro hi
    cases hc : a.c.inChans with
    | true => rfl
    | false =>
      unfold rx at e; rw [if_pos (.inl hc)] at e; cases e
      rw [hc] at hi; exact hi
  -- the phases after it
  obtain ⟨pb', hpb, h3', hfb⟩ : ∃ pb', PhOk ph' pb' ∧ One m pb' Wb Ab Vb Rb qb { b with out := L } ∧ ∀ f ∈ a.out, frAllowed m ph' f := by
    have hL : ∀ f ∈ L, frAllowed m pb f := fun f hf => h3.fr f (by rw [hb]; simp [hf])
    rcases r1 with rfl | ⟨rfl, rfl⟩
    · exact ⟨pb, h1, ⟨h3.safe, h3.k, hL, h3.sent⟩, h2.fr⟩
    · have : pb = .peerOpening := by
        rcases h1 with ⟨h, _⟩ | ⟨_, h⟩ | ⟨h, _⟩
        · cases h
        · exact h
        · cases h
      subst this
      exact ⟨.data, .inl ⟨rfl, rfl⟩, ⟨h3.safe, h3.k.data (fun _ => by simp), fun f hf => (hL f hf).data, h3.sent⟩, fun f hf => (h2.fr f hf).data⟩
  rcases r5 with ⟨rfl, rfl⟩ | ⟨hinfo, hch, rfl, rfl, rfl⟩
  · exact ⟨ph', pb', Wa, Wb, A', Ab, V', Vb, R', Rb, q', qb, hpb, ⟨hs', r2, hfb, h2.sent⟩, h3', ⟨h4.io, a2, h4.vr, h4.wb, h4.gl, h4.gp⟩,
      ⟨a6.mono a7, h5.ak.up r3, r4, h5.wb, fun hi => h5.gl (hin hi), h5.gp⟩⟩
  · obtain ⟨c1, c2⟩ := a8 hinfo
    have hflat := take_succ_flat c2
    have hgl : a.got ++ (qa ++ p.2.map (p.1, ·)) = flat (Wb.take (k + 1)) := by
      rw [hflat, ← h5.gl hch, List.append_assoc]
    refine ⟨ph', pb', Wa, Wb, A', Ab, V', Vb, k + 1, Rb, qa ++ p.2.map (p.1, ·), qb, hpb, ⟨hs', r2, hfb, h2.sent⟩, h3', ⟨h4.io, a2, h4.vr, h4.wb, h4.gl, h4.gp⟩,
      ⟨a6.mono (by omega), h5.ak.up r3, r4, by have := h5.wb; omega, fun _ => hgl, ?_⟩⟩
    show (a.got ++ _) <+: _
    rw [hgl]; exact List.prefix_rfl

end Gensio.Ax25
