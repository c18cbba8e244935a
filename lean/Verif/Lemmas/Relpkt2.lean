import Verif.Lemmas.Relpkt

/-! Lemmas about receiving in the reliable packet filter. -/

namespace Gensio.Relpkt

/-- The receive side is well formed. -/
structure RxOk (r : Rp) : Prop where
  len : r.rx.pkts.length = r.maxPkt
  pos : r.rx.pos < r.maxPkt
  m255 : r.maxPkt ≤ 255
  exp : r.rx.exp < 256
  del : r.rx.del < 256

/-- While the connection is not set up, nothing can be sent. -/
structure Ph (r : Rp) (opening : Bool) : Prop where
  wait : r.state = .waitInit ∨ r.state = .waitInitRsp → r.tx.max = 0 ∧ opening = true
  closed : r.state = .closed → opening = true → r.tx.max = 0
  close : r.state = .closeClear ∨ r.state = .closeRsp → opening = false

/-- Parts that never change, and the request for packets. -/
structure Keep (r r' : Rp) : Prop where
  rx : r'.rx = r.rx
  maxPkt : r'.maxPkt = r.maxPkt
  maxSize : r'.maxSize = r.maxSize
  resend : r'.resend = r.resend
  sendResend : r'.sendResend = r.sendResend

theorem Rx.slot_eq {r : Rp} (h : RxOk r) {pos : Nat} (hp : pos < 256) :
    r.rx.slot r.maxPkt pos = some ((r.rx.pos + pos) % r.maxPkt) ∧ (r.rx.pos + pos) % r.maxPkt < r.rx.pkts.length := by
  have h1 := h.pos
  have h2 := h.m255
  have h3 : (r.rx.pos + pos) % r.maxPkt < r.maxPkt := Nat.mod_lt _ (by omega)
  refine ⟨?_, by rw [h.len]; exact h3⟩
  unfold Rx.slot u8
  rw [if_neg (by omega), Nat.mod_eq_of_lt hp, Nat.mod_eq_of_lt (a := (r.rx.pos + pos) % r.maxPkt) (by omega)]

/-- What `requestResend` does to the other parts. -/
theorem requestResend_frame (r : Rp) (a b : Nat) :
    (r.requestResend a b).rx = r.rx ∧ (r.requestResend a b).maxPkt = r.maxPkt ∧
    (r.requestResend a b).maxSize = r.maxSize ∧ (r.requestResend a b).tx = r.tx ∧
    (r.requestResend a b).state = r.state := by
  unfold Rp.requestResend
  split <;> simp only <;> split <;> simp

theorem store_ok {r : Rp} (h : RxOk r) {ppos : Nat} (hp : ppos < r.rx.pkts.length) {payload : List UInt8}
    (hl : payload.length ≤ r.maxSize) (eom : Bool) :
    ∃ x, r.store ppos payload eom = some { r with rx := x } ∧ x.pkts.length = r.maxPkt ∧ x.pos = r.rx.pos ∧
      x.exp = r.rx.exp ∧ x.del = r.rx.del ∧
      x.pkts = (if (r.rx.pkts[ppos]).ready then r.rx.pkts else r.rx.pkts.set ppos ⟨payload, 0, true, eom⟩) := by
  unfold Rp.store
  rw [List.getElem?_eq_getElem hp]
  simp only
  cases hr : r.rx.pkts[ppos].ready
  · simp only [Bool.false_eq_true, if_false]
    rw [if_neg (by omega)]
    exact ⟨_, rfl, by simp [h.len], rfl, rfl, rfl, rfl⟩
  · simp only [if_true]
    exact ⟨r.rx, rfl, h.len, rfl, rfl, rfl, rfl⟩

/-- Taking a data packet, in full. -/
theorem takeData_spec {r : Rp} (h : RxOk r) {seq : Nat} (hs : seq < 256) {payload : List UInt8}
    (hl : payload.length ≤ r.maxSize) (eom : Bool) :
    ∃ r', r.takeData seq payload eom = some r' ∧ RxOk r' ∧ r'.maxPkt = r.maxPkt ∧ r'.maxSize = r.maxSize ∧
      r'.tx = r.tx ∧ r'.state = r.state ∧
      ((r' = r ∧ r.maxPkt < sub8 seq r.rx.del) ∨
       (sub8 seq r.rx.del ≤ r.maxPkt ∧ r'.rx.pos = r.rx.pos ∧ r'.rx.del = r.rx.del ∧
        (∃ hp : (r.rx.pos + sub8 seq r.rx.del) % r.maxPkt < r.rx.pkts.length,
          r'.rx.pkts = if (r.rx.pkts[(r.rx.pos + sub8 seq r.rx.del) % r.maxPkt]).ready then r.rx.pkts
            else r.rx.pkts.set ((r.rx.pos + sub8 seq r.rx.del) % r.maxPkt) ⟨payload, 0, true, eom⟩) ∧
        ((seq = r.rx.exp ∧ r'.rx.exp = u8 (r.rx.exp + 1) ∧ r'.resend = r.resend ∧ r'.sendResend = r.sendResend) ∨
         (seq ≠ r.rx.exp ∧ seqInside seq r.rx.del r.rx.exp = true ∧ r'.rx.exp = r.rx.exp ∧ r'.resend = r.resend ∧
            r'.sendResend = r.sendResend) ∨
         (seq ≠ r.rx.exp ∧ seqInside seq r.rx.del r.rx.exp = false ∧ r'.rx.exp = u8 (seq + 1) ∧
            r'.resend = (r.requestResend r.rx.exp (sub8 seq 1)).resend ∧
            r'.sendResend = (r.requestResend r.rx.exp (sub8 seq 1)).sendResend)))) := by
  unfold Rp.takeData
  by_cases c : sub8 seq r.rx.del > r.maxPkt
  · simp only
    rw [if_pos c]
    exact ⟨r, rfl, h, rfl, rfl, rfl, rfl, Or.inl ⟨rfl, c⟩⟩
  · simp only
    rw [if_neg c]
    have hlt : sub8 seq r.rx.del < 256 := Nat.mod_lt _ (by omega)
    obtain ⟨e1, e2⟩ := Rx.slot_eq h hlt
    rw [e1]
    simp only
    by_cases c1 : seq = r.rx.exp
    · rw [if_pos c1]
      have h' : RxOk { r with rx := { r.rx with exp := u8 (r.rx.exp + 1) } } :=
        ⟨h.len, h.pos, h.m255, Nat.mod_lt _ (by omega), h.del⟩
      obtain ⟨x, e, x1, x2, x3, x4, x5⟩ := store_ok h' (ppos := (r.rx.pos + sub8 seq r.rx.del) % r.maxPkt) e2 hl eom
      refine ⟨_, e, ⟨x1, ?_, h.m255, ?_, ?_⟩, rfl, rfl, rfl, rfl, Or.inr ⟨by omega, x2, x4, ⟨e2, x5⟩,
        Or.inl ⟨c1, x3, rfl, rfl⟩⟩⟩
      · simp only [x2]; exact h.pos
      · simp only [x3]; exact Nat.mod_lt _ (by omega)
      · simp only [x4]; exact h.del
    · rw [if_neg c1]
      by_cases c2 : seqInside seq r.rx.del r.rx.exp = true
      · rw [if_pos c2]
        obtain ⟨x, e, x1, x2, x3, x4, x5⟩ := store_ok h (ppos := (r.rx.pos + sub8 seq r.rx.del) % r.maxPkt) e2 hl eom
        refine ⟨_, e, ⟨x1, ?_, h.m255, ?_, ?_⟩, rfl, rfl, rfl, rfl, Or.inr ⟨by omega, x2, x4, ⟨e2, x5⟩,
          Or.inr (Or.inl ⟨c1, c2, x3, rfl, rfl⟩)⟩⟩
        · simp only [x2]; exact h.pos
        · simp only [x3]; exact h.exp
        · simp only [x4]; exact h.del
      · rw [if_neg c2]
        obtain ⟨f1, f2, f3, f4, f5⟩ := requestResend_frame r r.rx.exp (sub8 seq 1)
        have h' : RxOk { (r.requestResend r.rx.exp (sub8 seq 1)) with
            rx := { (r.requestResend r.rx.exp (sub8 seq 1)).rx with exp := u8 (seq + 1) } } :=
          ⟨by simp only [f1, f2]; exact h.len, by simp only [f1, f2]; exact h.pos, by simp only [f2]; exact h.m255,
            Nat.mod_lt _ (by omega), by simp only [f1]; exact h.del⟩
        obtain ⟨x, e, x1, x2, x3, x4, x5⟩ := store_ok h' (ppos := (r.rx.pos + sub8 seq r.rx.del) % r.maxPkt)
          (by simp only [f1]; exact e2) (payload := payload) (by simp only [f3]; exact hl) eom
        refine ⟨_, e, ⟨x1, ?_, ?_, ?_, ?_⟩, f2, f3, f4, f5, Or.inr ⟨by omega, ?_, ?_, ⟨e2, ?_⟩,
          Or.inr (Or.inr ⟨c1, by simpa using c2, x3, rfl, rfl⟩)⟩⟩
        · simp only [x2, f1, f2]; exact h.pos
        · simp only [f2]; exact h.m255
        · simp only [x3]; exact Nat.mod_lt _ (by omega)
        · simp only [x4, f1]; exact h.del
        · simp only [x2, f1]
        · simp only [x4, f1]
        · simp only [f1] at x5
          exact x5

/-- One end is well formed and holds the packets `Q` for sending. -/
structure Inv1 (r : Rp) (opening : Bool) (Q : List XPkt) : Prop where
  tx : TxQ r.tx r.maxPkt Q
  rx : RxOk r
  ph : Ph r opening
  size : r.tx.maxSize ≤ r.maxSize

/-- What processing a packet does. -/
structure ProcSpec (r : Rp) (opening : Bool) (Q : List XPkt) (buf : List UInt8) (r' : Rp) (Q' : List XPkt) (d : Nat) :
    Prop where
  inv : Inv1 r' opening Q'
  le : d ≤ Q.length
  norm : Q'.map XPkt.norm = (Q.map XPkt.norm).drop d
  send : r'.tx.send = r.tx.send
  acked : r'.tx.acked = (r.tx.acked + d) % 256
  maxPkt : r'.maxPkt = r.maxPkt
  maxSize : r'.maxSize = r.maxSize
  ack : d = 0 ∨ ∃ b0 b1 rest, buf = b0 :: b1 :: rest ∧ b0.toNat / 16 = 2 ∧ b1.toNat = r'.tx.acked
  win : r'.tx.max = r.tx.max ∨
    ∃ b0 b1 b2 rest, buf = b0 :: b1 :: b2 :: rest ∧ b0.toNat / 16 = 1 ∧ r'.tx.max ≤ b2.toNat ∧ r'.tx.max ≤ r.maxPkt
  recv : Keep r r' ∨ ∃ r1 b0 b1 b2 payload, buf = b0 :: b1 :: b2 :: payload ∧ b0.toNat / 16 = 2 ∧ payload ≠ [] ∧
    payload.length ≤ r.maxSize ∧ Keep r r1 ∧ r1.takeData b2.toNat payload (b0.toNat % 2 = 1) = some r'

theorem procSpec_refl {r : Rp} {opening : Bool} {Q : List XPkt} {buf : List UInt8} (h : Inv1 r opening Q) :
    ProcSpec r opening Q buf r Q 0 :=
  ⟨h, by omega, by simp, rfl, by have := h.tx.ack; omega, rfl, rfl, Or.inl rfl, Or.inl rfl,
    Or.inl ⟨rfl, rfl, rfl, rfl, rfl⟩⟩

/-- An end whose queue was replaced by one with the same packets. -/
theorem procSpec_tx {r : Rp} {opening : Bool} {Q Q' : List XPkt} {buf : List UInt8} (h : Inv1 r opening Q) (r' : Rp)
    {pk : List XPkt} {w : Nat} (ht : r'.tx = { r.tx with pkts := pk, waiting := w })
    (hQ : TxQ { r.tx with pkts := pk, waiting := w } r.maxPkt Q') (hn : Q'.map XPkt.norm = Q.map XPkt.norm)
    (hk : Keep r r') (hp : Ph r' opening) : ProcSpec r opening Q buf r' Q' 0 := by
  refine ⟨⟨by rw [hk.maxPkt, ht]; exact hQ, ⟨?_, ?_, ?_, ?_, ?_⟩, hp, ?_⟩, by omega, by simpa using hn, by rw [ht],
    by rw [ht]; have := h.tx.ack; simp only; omega, hk.maxPkt, hk.maxSize, Or.inl rfl, Or.inl (by rw [ht]), Or.inl hk⟩
  · rw [hk.rx, hk.maxPkt]; exact h.rx.len
  · rw [hk.rx, hk.maxPkt]; exact h.rx.pos
  · rw [hk.maxPkt]; exact h.rx.m255
  · rw [hk.rx]; exact h.rx.exp
  · rw [hk.rx]; exact h.rx.del
  · rw [ht, hk.maxSize]; exact h.size

theorem Ph.of_eq {r r' : Rp} {opening : Bool} (h : Ph r opening) (hs : r'.state = r.state) (ht : r'.tx.max = r.tx.max) :
    Ph r' opening :=
  ⟨by rw [hs, ht]; exact h.wait, by rw [hs, ht]; exact h.closed, by rw [hs]; exact h.close⟩

theorem Ph.opened {r : Rp} {opening : Bool} (hs : r.state = .opened) : Ph r opening :=
  ⟨by rw [hs]; simp, by rw [hs]; simp, by rw [hs]; simp⟩

theorem Ph.remClosed {r : Rp} {opening : Bool} (hs : r.state = .remClosed) : Ph r opening :=
  ⟨by rw [hs]; simp, by rw [hs]; simp, by rw [hs]; simp⟩

theorem TxQ.empty {t : Tx} {M : Nat} {Q : List XPkt} (h : TxQ t M Q) (h0 : t.max = 0) :
    Q = [] ∧ t.first = 0 := by
  have := h.qmax
  refine ⟨List.length_eq_zero_iff.mp (by omega), ?_⟩
  rcases h.fst with h | h <;> omega

theorem TxQ.setWin {t : Tx} {M : Nat} {Q : List XPkt} (h : TxQ t M Q) (h0 : t.max = 0) {m s : Nat} (hm : m ≤ M) :
    TxQ { t with max := m, maxSize := s } M Q := by
  obtain ⟨e1, e2⟩ := h.empty h0
  subst e1
  refine ⟨h.len, hm, h.m255, by simp, h.ack, h.snd, ?_, by simp, h.wait⟩
  simp only [e2]
  rcases Nat.eq_zero_or_pos m with h | h
  · exact Or.inr ⟨h, trivial⟩
  · exact Or.inl h

theorem onInit_spec {r : Rp} {opening : Bool} {Q : List XPkt} (h : Inv1 r opening Q) (buf : List UInt8)
    (ht : (buf.headD 0).toNat / 16 = 1) :
    ∃ r' res Q' d, r.onInit buf = some (r', res) ∧ ProcSpec r opening Q buf r' Q' d := by
  unfold Rp.onInit
  match buf, ht with
  | [], _ => exact ⟨r, _, Q, 0, rfl, procSpec_refl h⟩
  | [_], _ => exact ⟨r, _, Q, 0, rfl, procSpec_refl h⟩
  | [_, _], _ => exact ⟨r, _, Q, 0, rfl, procSpec_refl h⟩
  | [_, _, _], _ => exact ⟨r, _, Q, 0, rfl, procSpec_refl h⟩
  | [_, _, _, _], _ => exact ⟨r, _, Q, 0, rfl, procSpec_refl h⟩
  | b0 :: b1 :: b2 :: b3 :: b4 :: rest, ht =>
    simp only [List.headD_cons] at ht
    have hclose : ProcSpec r opening Q (b0 :: b1 :: b2 :: b3 :: b4 :: rest) { r with sendClose := true } Q 0 :=
      procSpec_tx h _ (pk := r.tx.pkts) (w := r.tx.waiting) rfl h.tx rfl ⟨rfl, rfl, rfl, rfl, rfl⟩ (h.ph.of_eq rfl rfl)
    have hwin : ∀ r', r.tx.max = 0 → r'.tx = (r.setWindow b2 b3 b4).tx → Keep r r' → r'.state = .opened →
        ProcSpec r opening Q (b0 :: b1 :: b2 :: b3 :: b4 :: rest) r' Q 0 := by
      intro r' h0 ht' hk hs
      have e1 : r'.tx.max = min b2.toNat r.maxPkt := by rw [ht']; rfl
      refine ⟨⟨?_, ⟨?_, ?_, ?_, ?_, ?_⟩, Ph.opened hs, ?_⟩, by omega, by simp, by rw [ht']; rfl, ?_, hk.maxPkt, hk.maxSize,
        Or.inl rfl, Or.inr ⟨b0, b1, b2, _, rfl, ht, by omega, by omega⟩, Or.inl hk⟩
      · rw [hk.maxPkt, ht']
        exact h.tx.setWin h0 (Nat.min_le_right _ _)
      · rw [hk.rx, hk.maxPkt]; exact h.rx.len
      · rw [hk.rx, hk.maxPkt]; exact h.rx.pos
      · rw [hk.maxPkt]; exact h.rx.m255
      · rw [hk.rx]; exact h.rx.exp
      · rw [hk.rx]; exact h.rx.del
      · rw [ht', hk.maxSize]; exact Nat.min_le_right _ _
      · rw [ht']
        have := h.tx.ack
        show r.tx.acked = _
        omega
    have hopen : r.state = .opened ∨ r.state = .closeClear →
        ∃ r' res Q' d, (if b0.toNat % 2 = 0 then
            match r.tx.resendPkts r.tx.acked r.tx.send with
            | none => none
            | some t => some ({ r with sendInit := true, initRsp := true, tx := t }, Res.deliver)
          else some (r, .deliver)) = some (r', res) ∧
          ProcSpec r opening Q (b0 :: b1 :: b2 :: b3 :: b4 :: rest) r' Q' d := by
      intro _
      by_cases c : b0.toNat % 2 = 0
      · rw [if_pos c]
        obtain ⟨pk, w, Q', e, hQ, hn⟩ := h.tx.resendAll
        rw [e]
        exact ⟨_, _, Q', 0, rfl, procSpec_tx h _ rfl hQ hn ⟨rfl, rfl, rfl, rfl, rfl⟩ (h.ph.of_eq rfl rfl)⟩
      · rw [if_neg c]
        exact ⟨r, _, Q, 0, rfl, procSpec_refl h⟩
    simp only
    split
    · exact ⟨_, _, Q, 0, rfl, hclose⟩
    · exact ⟨_, _, Q, 0, rfl, hclose⟩
    · exact ⟨_, _, Q, 0, rfl, hclose⟩
    · rename_i hst
      have h0 := h.ph.wait (Or.inl hst)
      by_cases c : b0.toNat % 2 = 0
      · rw [if_pos c]
        by_cases c2 : b2 = 0
        · rw [if_pos c2]
          have e0 : ({ r.tx with max := 0 } : Tx) = r.tx := by cases hh : r.tx; rw [hh] at h0; simp only at h0; simp [h0.1]
          refine ⟨_, _, Q, 0, rfl, ?_⟩
          refine procSpec_tx h _ (pk := r.tx.pkts) (w := r.tx.waiting) (by simp only [e0]) h.tx rfl
            ⟨rfl, rfl, rfl, rfl, rfl⟩ (h.ph.of_eq rfl (by simp [h0.1]))
        · rw [if_neg c2]
          exact ⟨_, _, Q, 0, rfl, hwin _ h0.1 rfl ⟨rfl, rfl, rfl, rfl, rfl⟩ rfl⟩
      · rw [if_neg c]
        exact ⟨r, _, Q, 0, rfl, procSpec_refl h⟩
    · rename_i hst
      have h0 := h.ph.wait (Or.inr hst)
      by_cases c : b0.toNat % 2 = 1
      · rw [if_pos c]
        exact ⟨_, _, Q, 0, rfl, hwin _ h0.1 rfl ⟨rfl, rfl, rfl, rfl, rfl⟩ rfl⟩
      · rw [if_neg c]
        exact ⟨r, _, Q, 0, rfl, procSpec_refl h⟩
    · exact hopen (Or.inl ‹_›)
    · exact hopen (Or.inr ‹_›)

theorem onData_spec {r : Rp} {opening : Bool} {Q : List XPkt} (h : Inv1 r opening Q) (buf : List UInt8)
    (ht : (buf.headD 0).toNat / 16 = 2) :
    ∃ r' res Q' d, r.onData buf = some (r', res) ∧ ProcSpec r opening Q buf r' Q' d := by
  match buf, ht with
  | [], _ => exact ⟨r, _, Q, 0, by simp [Rp.onData]; rfl, procSpec_refl h⟩
  | [_], _ => exact ⟨r, _, Q, 0, by simp [Rp.onData]; rfl, procSpec_refl h⟩
  | [_, _], _ => exact ⟨r, _, Q, 0, by simp [Rp.onData]; rfl, procSpec_refl h⟩
  | b0 :: b1 :: b2 :: payload, ht =>
    simp only [List.headD_cons] at ht
    by_cases hst : r.state = .opened ∨ r.state = .closeClear
    · rw [Rp.onData, if_pos hst, Rp.onDataOpen]
      by_cases c : payload.length > r.maxSize
      · rw [if_pos c]
        exact ⟨r, _, Q, 0, rfl, procSpec_refl h⟩
      · rw [if_neg c]
        have ha := h.tx.handleAck (seq := b1.toNat) (by have := b1.toNat_lt; omega)
        split at ha
        · rename_i cw
          obtain ⟨t, e, hQ, e1, e2, e3, e4⟩ := ha
          rw [e]
          simp only
          have hack : t.acked = (r.tx.acked + sub8 b1.toNat r.tx.acked) % 256 := by
            have := b1.toNat_lt
            have := h.tx.ack
            rw [e4]
            unfold sub8
            omega
          have base : ∀ r', r'.tx = t → Keep r r' → Ph r' opening →
              ProcSpec r opening Q (b0 :: b1 :: b2 :: payload) r' (Q.drop (sub8 b1.toNat r.tx.acked))
                (sub8 b1.toNat r.tx.acked) := by
            intro r' hr' hk hp
            refine ⟨⟨?_, ⟨?_, ?_, ?_, ?_, ?_⟩, hp, ?_⟩, cw.1, by rw [List.map_drop], by rw [hr', e3], by rw [hr', hack],
              hk.maxPkt, hk.maxSize, Or.inr ⟨b0, b1, _, rfl, ht, by rw [hr', e4]⟩, Or.inl (by rw [hr', e1]), Or.inl hk⟩
            · rw [hr', hk.maxPkt]; exact hQ
            · rw [hk.rx, hk.maxPkt]; exact h.rx.len
            · rw [hk.rx, hk.maxPkt]; exact h.rx.pos
            · rw [hk.maxPkt]; exact h.rx.m255
            · rw [hk.rx]; exact h.rx.exp
            · rw [hk.rx]; exact h.rx.del
            · rw [hr', e2, hk.maxSize]; exact h.size
          by_cases c1 : r.state ≠ .opened
          · rw [if_pos c1]
            have hcc : r.state = .closeClear := by
              rcases hst with hst | hst
              · exact absurd hst c1
              · exact hst
            have hop := h.ph.close (Or.inl hcc)
            by_cases c2 : t.acked = t.send
            · rw [if_pos c2]
              exact ⟨_, _, _, _, rfl, base _ rfl ⟨rfl, rfl, rfl, rfl, rfl⟩ ⟨by simp, by simp, by simp [hop]⟩⟩
            · rw [if_neg c2]
              exact ⟨_, _, _, _, rfl, base _ rfl ⟨rfl, rfl, rfl, rfl, rfl⟩ ⟨by simp [hcc], by simp [hcc], by simp [hop]⟩⟩
          · rw [if_neg c1]
            have hso : r.state = .opened := by
              cases hs : r.state <;> simp_all
            have b := base { r with tx := t, sinceAck := 0 } rfl ⟨rfl, rfl, rfl, rfl, rfl⟩ (Ph.opened hso)
            by_cases c2 : payload = []
            · rw [if_pos c2]
              exact ⟨_, _, _, _, rfl, b⟩
            · rw [if_neg c2]
              obtain ⟨r', et, hx, m1, m2, m3, m4, _⟩ := takeData_spec (r := { r with tx := t, sinceAck := 0 }) b.inv.rx
                (seq := b2.toNat) (by have := b2.toNat_lt; omega) (payload := payload) (by simp only; omega)
                (decide (b0.toNat % 2 = 1))
              rw [et]
              refine ⟨r', _, _, _, rfl, ⟨?_, hx, Ph.opened (by rw [m4]; exact hso), by rw [m3, m2]; exact b.inv.size⟩,
                b.le, b.norm, by rw [m3]; exact b.send, by rw [m3]; exact b.acked, m1, m2,
                Or.inr ⟨b0, b1, _, rfl, ht, by rw [m3]; exact e4.symm⟩, Or.inl (by rw [m3]; exact e1),
                Or.inr ⟨{ r with tx := t, sinceAck := 0 }, b0, b1, b2, payload, rfl, ht, c2, by omega, ⟨rfl, rfl, rfl, rfl, rfl⟩, et⟩⟩
              rw [m3, m1]
              exact b.inv.tx
        · rw [ha]
          exact ⟨r, _, Q, 0, rfl, procSpec_refl h⟩
    · refine ⟨r, .deliver, Q, 0, ?_, procSpec_refl h⟩
      rw [Rp.onData, if_neg hst]

/-- A resend request that does not run backwards. -/
def GoodReq (t : Tx) (buf : List UInt8) : Prop := (buf.headD 0).toNat / 16 = 3 → NoRev t.acked t.send (buf.drop 1)

theorem process_spec {r : Rp} {opening : Bool} {Q : List XPkt} (h : Inv1 r opening Q) (buf : List UInt8)
    (hg : GoodReq r.tx buf) : ∃ r' res Q' d, r.process buf = some (r', res) ∧ ProcSpec r opening Q buf r' Q' d := by
  have hsame : ∀ r' : Rp, r'.tx = r.tx → Keep r r' → Ph r' opening → ProcSpec r opening Q buf r' Q 0 := fun r' h1 h2 h3 =>
    procSpec_tx h r' (pk := r.tx.pkts) (w := r.tx.waiting) h1 h.tx rfl h2 h3
  have h3 : (buf.headD 0).toNat / 16 = 3 →
      ∃ r' res Q' d, (if (buf.length - 1) % 2 ≠ 0 then some (r, Res.proto)
        else
          match r.tx.onResend (buf.drop 1) with
          | none => none
          | some (t, res) => some ({ r with tx := t }, res)) = some (r', res) ∧ ProcSpec r opening Q buf r' Q' d := by
    intro ht
    by_cases c : (buf.length - 1) % 2 ≠ 0
    · rw [if_pos c]
      exact ⟨r, _, Q, 0, rfl, procSpec_refl h⟩
    · rw [if_neg c]
      obtain ⟨pk, w, res, Q', e, hQ, hn⟩ := h.tx.onResend _ _ (Nat.le_refl _) (hg ht)
      rw [e]
      exact ⟨_, _, Q', 0, rfl, procSpec_tx h _ rfl hQ hn ⟨rfl, rfl, rfl, rfl, rfl⟩ (h.ph.of_eq rfl rfl)⟩
  unfold Rp.process
  split
  · exact onInit_spec h buf ‹_›
  · exact onData_spec h buf ‹_›
  · rename_i ht
    split
    · exact ⟨r, _, Q, 0, rfl, procSpec_refl h⟩
    · exact ⟨r, _, Q, 0, rfl, procSpec_refl h⟩
    · exact ⟨r, _, Q, 0, rfl, procSpec_refl h⟩
    · exact ⟨r, _, Q, 0, rfl, procSpec_refl h⟩
    · exact h3 ht
    · exact h3 ht
    · exact h3 ht
  · split
    · exact ⟨r, _, Q, 0, rfl, procSpec_refl h⟩
    · exact ⟨r, _, Q, 0, rfl, procSpec_refl h⟩
    · exact ⟨r, _, Q, 0, rfl, procSpec_refl h⟩
    · rename_i hst
      have h0 := h.ph.wait (Or.inr hst)
      exact ⟨_, _, Q, 0, rfl, hsame _ rfl ⟨rfl, rfl, rfl, rfl, rfl⟩ ⟨by simp, by simp [h0.1], by simp⟩⟩
    · rename_i hst
      have h0 := h.ph.close (Or.inr hst)
      exact ⟨_, _, Q, 0, rfl, hsame _ rfl ⟨rfl, rfl, rfl, rfl, rfl⟩ ⟨by simp, by simp [h0], by simp⟩⟩
    · exact ⟨_, _, Q, 0, rfl, hsame _ rfl ⟨rfl, rfl, rfl, rfl, rfl⟩ (Ph.remClosed rfl)⟩
    · exact ⟨_, _, Q, 0, rfl, hsame _ rfl ⟨rfl, rfl, rfl, rfl, rfl⟩ (Ph.remClosed rfl)⟩
  · exact ⟨r, _, Q, 0, rfl, procSpec_refl h⟩

/-- What delivering does. -/
theorem deliver_spec {r : Rp} {opening : Bool} {Q : List XPkt} (h : Inv1 r opening Q) (take : Option Nat) :
    ∃ r' e d m, r.deliver take = some (r', e, d, m) ∧ Inv1 r' opening Q ∧ r'.tx = r.tx ∧ r'.maxPkt = r.maxPkt ∧
      r'.maxSize = r.maxSize ∧ r'.resend = r.resend ∧ r'.sendResend = r.sendResend ∧ r'.rx.exp = r.rx.exp ∧
      ((r'.rx = r.rx ∧ d = [] ∧ m = false) ∨
       ∃ hp : r.rx.pos < r.rx.pkts.length, (r.rx.pkts[r.rx.pos]).ready = true ∧
        ((d = (r.rx.pkts[r.rx.pos]).data.drop (r.rx.pkts[r.rx.pos]).start ∧ m = (r.rx.pkts[r.rx.pos]).eom ∧
          r'.rx.pkts = r.rx.pkts.set r.rx.pos { r.rx.pkts[r.rx.pos] with ready := false } ∧
          r'.rx.pos = (r.rx.pos + 1) % r.maxPkt ∧ r'.rx.del = u8 (r.rx.del + 1)) ∨
         ∃ n, n < (r.rx.pkts[r.rx.pos]).data.length - (r.rx.pkts[r.rx.pos]).start ∧
          d = ((r.rx.pkts[r.rx.pos]).data.drop (r.rx.pkts[r.rx.pos]).start).take n ∧ m = false ∧
          r'.rx.pkts = r.rx.pkts.set r.rx.pos { r.rx.pkts[r.rx.pos] with start := (r.rx.pkts[r.rx.pos]).start + n } ∧
          r'.rx.pos = r.rx.pos ∧ r'.rx.del = r.rx.del)) := by
  have hp : r.rx.pos < r.rx.pkts.length := by rw [h.rx.len]; exact h.rx.pos
  unfold Rp.deliver
  rw [List.getElem?_eq_getElem hp]
  simp only
  cases hr : r.rx.pkts[r.rx.pos].ready
  · rw [if_pos (by simp)]
    exact ⟨r, _, _, _, rfl, h, rfl, rfl, rfl, rfl, rfl, rfl, Or.inl ⟨rfl, rfl, rfl⟩⟩
  · rw [if_neg (by simp)]
    cases take with
    | none => exact ⟨r, _, _, _, rfl, h, rfl, rfl, rfl, rfl, rfl, rfl, Or.inl ⟨rfl, rfl, rfl⟩⟩
    | some count =>
      simp only
      have h1 := h.rx.pos
      by_cases c : count ≥ r.rx.pkts[r.rx.pos].data.length - r.rx.pkts[r.rx.pos].start
      · rw [if_pos c]
        obtain ⟨e1, e2⟩ := Rx.slot_eq h.rx (pos := 1) (by omega)
        rw [e1]
        refine ⟨_, _, _, _, rfl, ⟨h.tx, ⟨by simp [h.rx.len], Nat.mod_lt _ (by omega), h.rx.m255, h.rx.exp,
          Nat.mod_lt _ (by omega)⟩, h.ph.of_eq rfl rfl, h.size⟩, rfl, rfl, rfl, rfl, rfl, rfl,
          Or.inr ⟨hp, hr, Or.inl ⟨rfl, rfl, rfl, rfl, rfl⟩⟩⟩
      · rw [if_neg c]
        exact ⟨_, _, _, _, rfl, ⟨h.tx, ⟨by simp [h.rx.len], h.rx.pos, h.rx.m255, h.rx.exp, h.rx.del⟩, h.ph.of_eq rfl rfl,
          h.size⟩, rfl, rfl, rfl, rfl, rfl, rfl,
          Or.inr ⟨hp, hr, Or.inr ⟨count, by omega, rfl, rfl, by simp only [hr], rfl, rfl⟩⟩⟩

theorem timeout_spec {r : Rp} {opening : Bool} {Q : List XPkt} (h : Inv1 r opening Q) :
    ∃ r' e pk w Q', r.timeout = some (r', e) ∧ r'.tx = { r.tx with pkts := pk, waiting := w } ∧
      TxQ { r.tx with pkts := pk, waiting := w } r.maxPkt Q' ∧ Q'.map XPkt.norm = Q.map XPkt.norm ∧ Keep r r' ∧
      r'.state = r.state := by
  unfold Rp.timeout
  have hq := h.tx
  by_cases c : r.sinceAck + 1 > r.maxTimeouts
  · rw [if_pos c]
    exact ⟨_, _, r.tx.pkts, r.tx.waiting, Q, rfl, rfl, hq, rfl, ⟨rfl, rfl, rfl, rfl, rfl⟩, rfl⟩
  · rw [if_neg c]
    simp only
    by_cases c1 : r.tx.acked = r.tx.send
    · rw [if_pos c1]
      exact ⟨_, _, r.tx.pkts, r.tx.waiting, Q, rfl, rfl, hq, rfl, ⟨rfl, rfl, rfl, rfl, rfl⟩, rfl⟩
    · rw [if_neg c1]
      by_cases c2 : r.tx.acked = r.lastTimeoutAck
      · rw [if_pos c2]
        by_cases c3 : r.ackCount + 1 > 1
        · rw [if_pos c3]
          obtain ⟨pk, w, Q', e, hQ, hn⟩ := h.tx.resendAll
          rw [e]
          exact ⟨_, _, pk, w, Q', rfl, rfl, hQ, hn, ⟨rfl, rfl, rfl, rfl, rfl⟩, rfl⟩
        · rw [if_neg c3]
          exact ⟨_, _, r.tx.pkts, r.tx.waiting, Q, rfl, rfl, hq, rfl, ⟨rfl, rfl, rfl, rfl, rfl⟩, rfl⟩
      · rw [if_neg c2]
        exact ⟨_, _, r.tx.pkts, r.tx.waiting, Q, rfl, rfl, hq, rfl, ⟨rfl, rfl, rfl, rfl, rfl⟩, rfl⟩

end Gensio.Relpkt
