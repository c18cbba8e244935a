import Verif.Lemmas.MuxSend

/-!
# Flushing a mux is a sequence of elementary steps
-/

namespace Gensio.Mux

/-- Service strings fit in their length field. -/
def SvcOk (m : Mux) : Prop := ∀ (i : Nat) (c : Chan), m.chans[i]? = some c → c.service.length < 65536

theorem SvcOk.set {m : Mux} (h : SvcOk m) {i : Nat} {c c' : Chan} (hc : m.chans[i]? = some c)
    (hs : c'.service.length < 65536) : ∀ (j : Nat) (d : Chan), (m.chans.set i c')[j]? = some d → d.service.length < 65536 := by
  intro j d hd
  rw [set_get hc] at hd
  by_cases hji : j = i
  · rw [if_pos hji] at hd; rw [← Option.some.inj hd]; exact hs
  · rw [if_neg hji] at hd; exact h j d hd

theorem Start.service {c : Chan} {q : List Frame} {c' : Chan} {q' : List Frame} {x : Msg} (h : Start c q c' q' x) :
    c'.service = c.service := by
  cases h with
  | newChan _ e => rw [e]
  | close _ _ _ e => rw [e]
  | data _ _ _ _ e =>
    cases e with
    | ack e => rw [e]
    | msg f _ _ _ e => rw [e]

theorem SvcOk.step {m m' : Mux} {log log' : List Msg} {Q Q' : Nat → List Frame} (h : SvcOk m)
    (hs : TxStep (m, log, Q) (m', log', Q')) : SvcOk m' := by
  cases hs with
  | other b s e _ => subst e; exact h
  | skip i l c c' h1 h2 h3 h4 h5 => exact h.set h4 (by rw [h5]; exact h i c h4)
  | start i l c c' q' x h1 h2 h3 h4 h5 => exact h.set h4 (by rw [h5.service]; exact h i c h4)
  | part i n c h1 h2 h3 => exact h.set h2 (h i c h2)
  | done i c c' w h1 h2 h3 h4 => exact h.set h2 (by rw [h3]; exact h i c h2)
  | xmit n x h1 h2 h3 h4 h5 =>
    have hch : (m.sendXmit n).chans = m.chans := by rw [Mux.sendXmit]; split <;> rfl
    intro i c hc
    rw [hch] at hc
    exact h i c hc

theorem SvcOk.steps {a b : TxSt} (hs : TxSteps a b) (h : SvcOk a.1) : SvcOk b.1 := by
  induction hs with
  | refl => exact h
  | tail _ s ih => exact ih.step s

theorem set_set (m : Mux) (i : Nat) (c1 c2 : Chan) (l : List Nat) :
    ({ m.set i c1 with wrchans := l } : Mux).set i c2 = { m.set i c2 with wrchans := l } := by
  simp [Mux.set, List.set_set]

/-- The channel at the head of the list either starts a message or is skipped. -/
theorem pickOne_spec {m : Mux} {log : List Msg} {Q : Nat → List Frame} (h : MInv m log Q) (hv : SvcOk m) {i : Nat}
    {l : List Nat} {c : Chan} (h1 : m.sending = none) (h2 : m.xmit = []) (h3 : m.wrchans = i :: l)
    (h4 : m.chans[i]? = some c) :
    ∃ m' b, ({ m.set i { c with inWrlist := false } with wrchans := l } : Mux).pickOne i { c with inWrlist := false }
        = some (m', b)
      ∧ (b = false → TxStep (m, log, Q) (m', log, Q) ∧ m'.sending = none ∧ m'.xmit = [] ∧ m'.wrchans = l)
      ∧ (b = true → ∃ log' Q', TxStep (m, log, Q) (m', log', Q') ∧ m'.sending = some i) := by
  have ht := h.chan _ _ h4
  have hl := lt_of_get h4
  have hsg : c.sg = [] := Decidable.byContradiction fun hne => by
    have := (h.snd _ _ h4).mp hne
    rw [h1] at this; cases this
  have hrd : c.wrReady = true := (h.ready _ _ h4).mpr (Or.inl (by rw [h3]; exact List.mem_cons_self ..))
  have ht1 : ChanTx { c with inWrlist := false } (Q i) := ⟨ht.ring, ht.ok, ht.segs, ht.seglen, ht.cur⟩
  rw [Mux.pickOne]
  simp only
  by_cases hn : c.sendNew = true
  · rw [if_pos hn]
    obtain ⟨c', e, a1, a2, a3, a4⟩ := ht1.setupNew hsg
    simp only [e, set_set]
    refine ⟨_, true, rfl, (by intro hb; cases hb), fun _ => ?_⟩
    refine ⟨_, _, .start i l c { c' with sendNew := false } (Q i) _ h1 h2 h3 h4 (.newChan _ hn ?_) a3 ?_ ?_ a2, rfl⟩
    · rw [a4]
    · exact hv i c h4
    · exact ⟨a1.ring, a1.ok, a1.segs, a1.seglen, a1.cur⟩
  · rw [if_neg hn]
    have hn' : c.sendNew = false := by simpa using hn
    by_cases hd : (c.wr.len ≠ 0 ∨ c.recvUnacked ≠ 0) ∧ c.closeSent = false
    · rw [if_pos hd]
      obtain ⟨c', b, q', o, e, a1, a2, a3, a4⟩ := ht1.setupData hsg
      simp only [e]
      cases b with
      | true =>
        simp only [set_set]
        obtain ⟨b1, x, rfl, b2, b3⟩ := a4 rfl
        exact ⟨_, true, rfl, (by intro hb; cases hb), fun _ =>
          ⟨_, _, .start i l c c' q' x h1 h2 h3 h4 (.data _ _ _ hn' hd.2 a1) b3 b2 a2 b1, rfl⟩⟩
      | false =>
        simp only [set_set]
        refine ⟨_, false, rfl, fun _ => ⟨.skip i l c _ h1 h2 h3 h4 ?_ (fun _ _ => setupData_false (c := { c with inWrlist := false }) e), h1, h2, rfl⟩, (by intro hb; cases hb)⟩
        cases a1 with
        | nothing e => rw [e]
    · rw [if_neg hd]
      by_cases hcl : c.sendClose = true ∧ (c.rd.len = 0 ∨ c.state = .inClose ∨ c.state = .inCloseFinal)
      · rw [if_pos hcl]
        obtain ⟨c', e, a1, a2, a3, a4⟩ := ht1.setupClose hsg
        simp only [e, set_set]
        have hget : ({ m.set i c' with wrchans := l } : Mux).chans[i]? = some c' := by
          simp only [Mux.set]; rw [set_get h4, if_pos rfl]
        have hadd : ({ m.set i c' with wrchans := l } : Mux).addWr i = some { m.set i c' with wrchans := l } := by
          rw [Mux.addWr]
          simp only [hget]
          rw [if_pos (by rw [a4]; exact hrd)]
        simp only [hadd, hget, set_set]
        refine ⟨_, true, rfl, (by intro hb; cases hb), fun _ => ?_⟩
        refine ⟨_, _, .start i l c { c' with sendClose := false, closeSent := true } (Q i) _ h1 h2 h3 h4
          (.close _ hn' hcl.1 ?_ ?_) a3 (by simp [Msg.Ok]) ?_ a2, rfl⟩
        · cases hcs : c.closeSent with
          | true => exact Or.inr rfl
          | false =>
            rw [hcs] at hd
            simp only [and_true, not_or, Classical.not_not] at hd
            exact Or.inl hd
        · rw [a4]
        · exact ⟨a1.ring, a1.ok, a1.segs, a1.seglen, a1.cur⟩
      · rw [if_neg hcl]
        simp only [set_set]
        refine ⟨_, false, rfl, fun _ => ⟨.skip i l c _ h1 h2 h3 h4 rfl (fun _ g => ?_), h1, h2, rfl⟩, (by intro hb; cases hb)⟩
        rw [g] at hd
        simp only [and_true, not_or, Classical.not_not] at hd
        exact Or.inl hd.1

theorem pick_spec : ∀ (l : List Nat) (m : Mux) (log : List Msg) (Q : Nat → List Frame), MInv m log Q → SvcOk m →
    m.sending = none → m.xmit = [] → m.wrchans = l →
    ∃ m' log' Q', m.pick l = some m' ∧ TxSteps (m, log, Q) (m', log', Q')
  | [], m, log, Q, _, _, _, _, hw => by
    refine ⟨m, log, Q, ?_, .refl _⟩
    rw [Mux.pick, ← hw]
  | i :: l, m, log, Q, h, hv, h1, h2, h3 => by
    have hl := h.wrIn i (by rw [h3]; exact List.mem_cons_self ..)
    have h4 : m.chans[i]? = some m.chans[i] := List.getElem?_eq_getElem hl
    rw [Mux.pick]
    simp only [h4]
    obtain ⟨m', b, e, a1, a2⟩ := pickOne_spec h hv h1 h2 h3 h4
    rw [e]
    cases b with
    | true =>
      obtain ⟨log', Q', s, _⟩ := a2 rfl
      exact ⟨m', log', Q', rfl, .one s⟩
    | false =>
      obtain ⟨s, b1, b2, b3⟩ := a1 rfl
      obtain ⟨m2, log2, Q2, e2, s2⟩ := pick_spec l m' log Q (h.step s) (hv.step s) b1 b2 b3
      exact ⟨m2, log2, Q2, e2, (TxSteps.one s).trans s2⟩

theorem sendPart_spec {m : Mux} {log : List Msg} {Q : Nat → List Frame} (h : MInv m log Q) {i : Nat}
    (h1 : m.sending = some i) (n : Nat) : ∃ m', m.sendPart i n = some m' ∧ TxStep (m, log, Q) (m', log, Q) := by
  have hl := h.sndIn i h1
  have h4 : m.chans[i]? = some m.chans[i] := List.getElem?_eq_getElem hl
  generalize hcc : m.chans[i] = c at h4
  have ht := h.chan _ _ h4
  have hne : c.sg ≠ [] := (h.snd _ _ h4).mpr h1
  rw [Mux.sendPart]
  simp only [h4]
  rw [if_neg hne]
  by_cases ha : advance c.sg n = []
  · rw [if_pos ha]
    have hp : c.pend.take n = c.pend := List.take_of_length_le ((advance_nil_iff ht n).mp ha)
    rw [hp, Mux.sentAll]
    simp only [(ht.done).1]
    split
    · refine ⟨_, rfl, ?_⟩
      exact .done i c _ (m.wrchans ++ [i]) h1 h4 rfl (Or.inl ⟨rfl, rfl, rfl⟩)
        (fun g1 g2 => by rw [g2] at g1; cases g1)
    · rename_i hlen
      refine ⟨_, rfl, ?_⟩
      exact .done i c _ m.wrchans h1 h4 rfl (Or.inr ⟨rfl, rfl, rfl⟩) (fun _ _ => by
        simp only [not_or, Nat.not_lt, Nat.le_zero] at hlen
        exact hlen.1)
  · rw [if_neg ha]
    exact ⟨_, rfl, .part i n c h1 h4 ha⟩

theorem sendXmit_spec {m : Mux} {log : List Msg} {Q : Nat → List Frame} (h : MInv m log Q) (h1 : m.sending = none)
    (h2 : m.xmit.isEmpty = false) (n : Nat) : ∃ log', TxStep (m, log, Q) (m.sendXmit n, log', Q) := by
  rcases h.xmit with ⟨he, _⟩ | ⟨x, x1, x2, x3⟩
  · rw [he] at h2; cases h2
  · by_cases hc : m.xmitPos ≠ 0 ∨ n = 0
    · exact ⟨log, .xmit n x h1 x2 x1 x3 (Or.inl ⟨rfl, hc⟩)⟩
    · exact ⟨log ++ [x], .xmit n x h1 x2 x1 x3 (Or.inr ⟨rfl, by omega, by omega⟩)⟩

theorem pre_spec {m : Mux} {log : List Msg} {Q : Nat → List Frame} (h : MInv m log Q) (hv : SvcOk m) :
    ∃ m' log' Q', (if m.idle then m.pick m.wrchans else some m) = some m' ∧ TxSteps (m, log, Q) (m', log', Q') := by
  by_cases hi : m.idle = true
  · rw [if_pos hi]
    rw [Mux.idle, Bool.and_eq_true] at hi
    exact pick_spec _ m log Q h hv (by simpa using hi.1) (by simpa using hi.2) rfl
  · rw [if_neg hi]
    exact ⟨m, log, Q, rfl, .refl _⟩

/-- `mux_child_write_ready` never fails an assertion, and consists of elementary steps. -/
theorem flush_spec : ∀ (ans : List (Option Nat)) (m : Mux) (log : List Msg) (Q : Nat → List Frame), MInv m log Q →
    SvcOk m → ∃ m' log' Q', m.flush ans = some m' ∧ TxSteps (m, log, Q) (m', log', Q')
  | [], m, log, Q, h, hv => by
    obtain ⟨m', log', Q', e, s⟩ := pre_spec h hv
    rw [Mux.flush, e]
    exact ⟨_, _, _, rfl, .tail s (.other _ _ rfl (Or.inl rfl))⟩
  | a :: ans, m, log, Q, h, hv => by
    obtain ⟨m1, log1, Q1, e, s⟩ := pre_spec h hv
    have h1 : MInv m1 log1 Q1 := MInv.steps s h
    have hv1 : SvcOk m1 := SvcOk.steps s hv
    rw [Mux.flush, e]
    simp only
    cases hsd : m1.sending with
    | some i =>
      cases a with
      | none => exact ⟨_, _, _, rfl, .tail s (.other _ _ rfl (Or.inr rfl))⟩
      | some n =>
        obtain ⟨m2, e2, s2⟩ := sendPart_spec h1 hsd n
        simp only [e2]
        by_cases hn : m2.sending.isNone = true
        · rw [if_pos hn]
          obtain ⟨m3, log3, Q3, e3, s3⟩ := flush_spec ans m2 log1 Q1 (h1.step s2) (hv1.step s2)
          exact ⟨m3, log3, Q3, e3, (TxSteps.tail s s2).trans s3⟩
        · rw [if_neg hn]
          exact ⟨_, _, _, rfl, .tail (.tail s s2) (.other _ _ rfl (Or.inl rfl))⟩
    | none =>
      by_cases hx : m1.xmit.isEmpty = true
      · simp only [if_pos hx]
        exact ⟨_, _, _, rfl, .tail s (.other _ _ rfl (Or.inl rfl))⟩
      · simp only [if_neg hx]
        cases a with
        | none => exact ⟨_, _, _, rfl, .tail s (.other _ _ rfl (Or.inr rfl))⟩
        | some n =>
          simp only
          obtain ⟨log2, s2⟩ := sendXmit_spec h1 hsd (by simpa using hx) n
          by_cases hn : n ≥ (m1.xmit.drop m1.xmitPos).length
          · rw [if_pos hn]
            obtain ⟨m3, log3, Q3, e3, s3⟩ := flush_spec ans _ log2 Q1 (h1.step s2) (hv1.step s2)
            exact ⟨m3, log3, Q3, e3, (TxSteps.tail s s2).trans s3⟩
          · rw [if_neg hn]
            exact ⟨_, _, _, rfl, .tail (.tail s s2) (.other _ _ rfl (Or.inl rfl))⟩

theorem writeReady_spec {m : Mux} {log : List Msg} {Q : Nat → List Frame} (h : MInv m log Q) (hv : SvcOk m)
    (ans : List (Option Nat)) : ∃ m' log' Q', m.writeReady ans = some m' ∧ TxSteps (m, log, Q) (m', log', Q') := by
  rw [Mux.writeReady]
  split
  · exact ⟨_, _, _, rfl, .one (.other _ _ rfl (Or.inl rfl))⟩
  · exact flush_spec ans m log Q h hv

/-! ## Other operations -/

/-- A write adds exactly one message. -/
theorem write_spec {m : Mux} {log : List Msg} {Q : Nat → List Frame} (h : MInv m log Q) {i : Nat} {c : Chan}
    (hc : m.chans[i]? = some c) (hw : c.wr.data.length ≤ 65538) (sg : List (List UInt8)) (eom oob : Bool) :
    ∃ m' r, m.write i sg eom oob = some (m', r) ∧
      ((m' = m ∧ ∀ n, r = .count n → n = 0) ∨
       ∃ n f c', r = .count n ∧ 0 < n ∧ n ≤ sg.flatten.length ∧ c.state = .opened
         ∧ n + 3 ≤ c.window / 2
         ∧ f = (mkFlags (decide (n = sg.flatten.length) && eom) oob, sg.flatten.take n)
         ∧ FrameOk f
         ∧ c' = { c with wr := c'.wr, acc := c.acc ++ [f], wrReady := c'.wrReady, inWrlist := c'.inWrlist }
         ∧ c'.wr.data.length = c.wr.data.length
         ∧ m'.chans = m.chans.set i c' ∧ (∃ w b, m' = { m with chans := m'.chans, wrchans := w, wrEn := b })
         ∧ MInv m' log (upd Q i (Q i ++ [f]))) := by
  rw [Mux.write]
  simp only [hc]
  have hnil : ∀ r, (∀ n, r = WrRes.count n → n = 0) →
      ∃ m' r', some (m, r) = some (m', r') ∧ ((m' = m ∧ ∀ n, r' = .count n → n = 0) ∨
       ∃ n f c', r' = .count n ∧ 0 < n ∧ n ≤ sg.flatten.length ∧ c.state = .opened
         ∧ n + 3 ≤ c.window / 2
         ∧ f = (mkFlags (decide (n = sg.flatten.length) && eom) oob, sg.flatten.take n)
         ∧ FrameOk f
         ∧ c' = { c with wr := c'.wr, acc := c.acc ++ [f], wrReady := c'.wrReady, inWrlist := c'.inWrlist }
         ∧ c'.wr.data.length = c.wr.data.length
         ∧ m'.chans = m.chans.set i c' ∧ (∃ w b, m' = { m with chans := m'.chans, wrchans := w, wrEn := b })
         ∧ MInv m' log (upd Q i (Q i ++ [f]))) := fun r hr => ⟨m, r, rfl, Or.inl ⟨rfl, hr⟩⟩
  by_cases h0 : sg.flatten.length = 0
  · rw [if_pos h0]
    exact hnil _ (by intro n hn; injection hn with hn; exact hn.symm)
  · rw [if_neg h0]
    by_cases hst : c.state ≠ .opened
    · rw [if_pos hst]; exact hnil _ (by intro n hn; cases hn)
    · rw [if_neg hst]
      by_cases her : c.err ≠ 0
      · rw [if_pos her]; exact hnil _ (by intro n hn; cases hn)
      · rw [if_neg her]
        cases hr : room c (sg.flatten.length + 3) with
        | none => exact hnil _ (by intro n hn; injection hn with hn; exact hn.symm)
        | some v =>
          obtain ⟨t, tr⟩ := v
          obtain ⟨r1, r2, r3, r4, r5⟩ := room_spec hr (by omega)
          simp only [Mux.queue]
          have ht := h.chan _ _ hc
          obtain ⟨q1, q2, e1, e2, e3, e4, e5⟩ := ht.queue (fl := mkFlags (!tr && eom) oob) r1 r3 r2 (by omega)
          simp only [e1, e2]
          have hb : (!tr && eom) = (decide (t - 3 = sg.flatten.length) && eom) := by
            cases htr : tr with
            | true =>
              have := r5.mp htr
              rw [decide_eq_false (by omega)]; rfl
            | false =>
              have : ¬ t < sg.flatten.length + 3 := fun hlt => by rw [r5.mpr hlt] at htr; cases htr
              rw [decide_eq_true (by omega)]; rfl
          have hfl : (sg.flatten.take (t - 3)).length = t - 3 := by rw [List.length_take]; omega
          have hM := h.set hc (c' := { c with wr := q2, acc := c.acc ++ [(mkFlags (!tr && eom) oob, sg.flatten.take (t - 3))] })
            (q' := Q i ++ [(mkFlags (!tr && eom) oob, sg.flatten.take (t - 3))])
            ⟨e4.ring, e4.ok, e4.segs, e4.seglen, e4.cur⟩ Iff.rfl (fun _ => e5) rfl rfl
          obtain ⟨m2, f1, f2, ⟨⟨d, d', g1, g2, g3⟩, ⟨w, b, g4⟩⟩⟩ := hM.addWr (i := i)
            (by simp only [Mux.set]; rw [set_get hc, if_pos rfl])
          simp only [f1]
          simp only [Mux.set] at g1
          rw [set_get hc, if_pos rfl] at g1
          have g1' := Option.some.inj g1
          refine ⟨m2, _, rfl, Or.inr ⟨t - 3, _, d', rfl, by omega, by omega, by simpa using hst, by omega,
            rfl, ?_, ?_, ?_, ?_, ⟨w, b, ?_⟩, ?_⟩⟩
          · exact ⟨by simp only [hfl]; omega, by simp only [hfl]; omega⟩
          · rw [g3, ← g1', hb]
          · rw [g3, ← g1']; exact e3
          · rw [g2]; simp only [Mux.set, List.set_set]
          · rw [g4]; rfl
          · rw [← hb]; exact f2

end Gensio.Mux
