import Verif.Lemmas.Relpkt3

/-! Receiving between two ends of the reliable packet filter. -/

namespace Gensio.Relpkt

theorem mark_false (l : List UInt8) : mark l false = l.map (fun b => (b, false)) := by
  induction l with
  | nil => rfl
  | cons a l ih =>
    cases l with
    | nil => rfl
    | cons b l => simp only [mark, List.map_cons]; rw [ih]; rfl

theorem mark_append (a b : List UInt8) (hb : b ≠ []) (m : Bool) :
    mark (a ++ b) m = a.map (fun x => (x, false)) ++ mark b m := by
  induction a with
  | nil => rfl
  | cons x a ih =>
    cases hab : a ++ b with
    | nil => simp_all
    | cons y l =>
      rw [List.cons_append, hab]
      simp only [mark, List.map_cons, List.cons_append]
      rw [← hab, ih]

theorem requestResend_short {r : Rp} {M : Nat} {a b : Nat} (hs : Short M r.resend) (he : r.resend.length % 2 = 0)
    (ha : a < 256) (hb : b < 256) (h : sub8 b a < M) :
    Short M (r.requestResend a b).resend ∧ (r.requestResend a b).resend.length % 2 = 0 := by
  have hx : ∀ l : List UInt8, Short M l → l.length % 2 = 0 →
      Short M (l ++ [UInt8.ofNat a, UInt8.ofNat b]) ∧ (l ++ [UInt8.ofNat a, UInt8.ofNat b]).length % 2 = 0 := by
    intro l h1 h2
    refine ⟨short_append ?_ _ l (Nat.le_refl _) h2 h1, by simp; omega⟩
    rw [toNat_ofNat, toNat_ofNat, Nat.mod_eq_of_lt ha, Nat.mod_eq_of_lt hb]
    exact h
  unfold Rp.requestResend
  by_cases c : r.sendResend = true
  · simp only [c, if_true]
    split
    · exact ⟨hs, he⟩
    · exact hx _ hs he
  · have c' : r.sendResend = false := by simpa using c
    simp only [c', Bool.false_eq_true, if_false]
    split
    · exact ⟨trivial, rfl⟩
    · exact hx [] trivial rfl

/-- What the packets of the peer say, seen by the receiver. -/
theorem form_ack {M : Nat} {L : List G} {p : Pk} (h : Form M L p) {b0 b1 : UInt8} {rest : List UInt8}
    (hb : p.bytes = b0 :: b1 :: rest) (ht : b0.toNat / 16 = 2) : b1.toNat = p.ack % 256 := by
  cases h with
  | data s g h1 h0 h2 h3 =>
    rw [h3] at hb
    simp only [wire, List.cons_append, List.set_cons_succ, List.set_cons_zero, List.cons.injEq] at hb
    rw [← hb.2.1, toNat_ofNat]
  | ack h =>
    rw [h] at hb
    simp only [List.cons.injEq] at hb
    rw [← hb.2.1, toNat_ofNat]
  | init c0 c1 c2 r h1 h2 h3 =>
    rw [h1] at hb
    simp only [List.cons.injEq] at hb
    rw [hb.1] at h2
    omega
  | resend r h1 h2 =>
    rw [h1] at hb
    simp only [List.cons.injEq] at hb
    rw [← hb.1] at ht
    exact absurd ht (by decide)
  | close h =>
    rw [h] at hb
    simp only [List.cons.injEq] at hb
    rw [← hb.1] at ht
    exact absurd ht (by decide)

theorem form_data {M : Nat} {L : List G} {p : Pk} (h : Form M L p) {b0 b1 b2 : UInt8} {payload : List UInt8}
    (hb : p.bytes = b0 :: b1 :: b2 :: payload) (ht : b0.toNat / 16 = 2) (hp : payload ≠ []) :
    ∃ s g, p.low ≤ s ∧ s < p.low + M ∧ L[s]? = some g ∧ b2.toNat = s % 256 ∧ g.pl = payload ∧ g.w = decide (b0.toNat % 2 = 1) := by
  cases h with
  | data s g h1 h0 h2 h3 =>
    rw [h3] at hb
    simp only [wire, List.cons_append, List.nil_append, List.set_cons_succ, List.set_cons_zero, List.cons.injEq] at hb
    obtain ⟨e0, e1, e2, e3⟩ := hb
    refine ⟨s, g, h1, h0, h2, by rw [← e2, toNat_ofNat], e3, ?_⟩
    rw [← e0]
    cases g.w <;> decide
  | ack h =>
    rw [h] at hb
    simp only [List.cons.injEq] at hb
    exact absurd hb.2.2.2.symm hp
  | init c0 c1 c2 r h1 h2 h3 =>
    rw [h1] at hb
    simp only [List.cons.injEq] at hb
    rw [hb.1] at h2
    omega
  | resend r h1 h2 =>
    rw [h1] at hb
    simp only [List.cons.injEq] at hb
    rw [← hb.1] at ht
    exact absurd ht (by decide)
  | close h =>
    rw [h] at hb
    simp only [List.cons.injEq] at hb
    rw [← hb.1] at ht
    exact absurd ht (by decide)

theorem form_init {M : Nat} {L : List G} {p : Pk} (h : Form M L p) {b0 b1 b2 : UInt8} {rest : List UInt8}
    (hb : p.bytes = b0 :: b1 :: b2 :: rest) (ht : b0.toNat / 16 = 1) : b2.toNat ≤ M := by
  cases h with
  | data s g h1 h0 h2 h3 =>
    rw [h3] at hb
    simp only [wire, List.cons_append, List.nil_append, List.set_cons_succ, List.set_cons_zero, List.cons.injEq] at hb
    rw [← hb.1] at ht
    cases hg : g.w <;> rw [hg] at ht <;> exact absurd ht (by decide)
  | ack h =>
    rw [h] at hb
    simp only [List.cons.injEq] at hb
    rw [← hb.1] at ht
    exact absurd ht (by decide)
  | init c0 c1 c2 r h1 h2 h3 =>
    rw [h1] at hb
    simp only [List.cons.injEq] at hb
    rw [← hb.2.2.1]
    exact h3
  | resend r h1 h2 =>
    rw [h1] at hb
    simp only [List.cons.injEq] at hb
    rw [← hb.1] at ht
    exact absurd ht (by decide)
  | close h =>
    rw [h] at hb
    simp only [List.cons.injEq] at hb
    rw [← hb.1] at ht
    exact absurd ht (by decide)

theorem form_good {M t : Nat} {L : List G} {p : Pk} (h : Form M L p) {x : Tx} {N : Nat} {Q : List XPkt} (hx : TxQ x N Q)
    (ht : x.max ≤ t) (hM : t + M ≤ 256) : GoodReq x p.bytes := by
  intro h3
  cases h with
  | data s g h1 h0 h2 h4 =>
    rw [h4] at h3
    simp only [wire, List.cons_append, List.set_cons_succ, List.headD_cons] at h3
    cases hg : g.w <;> rw [hg] at h3 <;> exact absurd h3 (by decide)
  | ack h => rw [h] at h3; simp only [List.headD_cons] at h3; exact absurd h3 (by decide)
  | init c0 c1 c2 r h1 h2 h4 =>
    rw [h1] at h3
    simp only [List.headD_cons] at h3
    omega
  | resend r h1 h2 =>
    rw [h1]
    have hq := hx.qmax
    exact noRev_of_short hx.ack hx.send_lt (by rw [hx.sub_send]; omega) hM _ r (Nat.le_refl _) h2
  | close h => rw [h] at h3; exact absurd h3 (by decide)

/-- A packet is old enough not to be mistaken for another: what the network must guarantee. -/
def Fresh (e : End) (p : Pk) : Prop := e.nDel + e.r.maxPkt < p.low + 256 ∧ e.nAck + e.r.tx.max < p.ack + 256

/-- Taking a data packet keeps the invariant of the receiver. -/
theorem RecvP.takeData {e : End} {L : List G} {E : Nat} (h : RecvP e L E) (hx : RxOk e.r) {r1 r' : Rp}
    (hk : Keep e.r r1) {b2 : UInt8} {payload : List UInt8} {eom : Bool} (hl : payload.length ≤ e.r.maxSize)
    (htd : r1.takeData b2.toNat payload eom = some r') {s : Nat} {g : G} {low : Nat} (hs1 : low ≤ s)
    (hs2 : L[s]? = some g) (hb2 : b2.toNat = s % 256) (hg1 : g.pl = payload) (hg2 : g.w = eom) (hne : payload ≠ [])
    (hfr : e.nDel + e.r.maxPkt < low + 256) (hwin : L.length ≤ e.nDel + e.r.maxPkt) :
    ∃ E', E' ≤ max E (s + 1) ∧ RecvP (e.upd r') L E' ∧ (e.upd r').nDel = e.nDel := by
  have hm := hx.m255
  have hle := h.le
  have hleL := h.leL
  have hdel := h.del
  have hexp := h.exp
  have hsl := (List.getElem?_eq_some_iff.mp hs2).1
  have hx1 : RxOk r1 := ⟨by rw [hk.rx, hk.maxPkt]; exact hx.len, by rw [hk.rx, hk.maxPkt]; exact hx.pos,
    by rw [hk.maxPkt]; exact hx.m255, by rw [hk.rx]; exact hx.exp, by rw [hk.rx]; exact hx.del⟩
  obtain ⟨r2, et, _, m1, m2, _, _, hc⟩ := takeData_spec hx1 (seq := b2.toNat) (by have := b2.toNat_lt; omega)
    (payload := payload) (by rw [hk.maxSize]; exact hl) eom
  rw [htd] at et
  cases et
  rw [hk.maxPkt] at m1
  rcases hc with ⟨rfl, hfar⟩ | ⟨hnear, x1, x2, ⟨hpl, x3⟩, hexp'⟩
  · -- far away: ignored
    have e3 : (e.upd r').nDel = e.nDel := by
      simp only [End.upd, hk.rx, sub8_self hx.del]
      omega
    exact ⟨E, by omega, h.frame hk.rx hk.maxPkt e3 rfl hk.resend, e3⟩
  · rw [hk.rx, hk.maxPkt] at hnear
    simp only [hk.rx, hk.maxPkt] at x3
    rw [hk.rx] at x1 x2
    rw [hk.rx, hk.resend, hk.sendResend] at hexp'
    have e3 : (e.upd r').nDel = e.nDel := by
      simp only [End.upd, x2, sub8_self hx.del]
      omega
    -- the packet is one that was not delivered yet
    have hge : e.nDel ≤ s := by
      by_cases c : e.nDel ≤ s
      · exact c
      · exfalso
        rw [hb2, hdel] at hnear
        unfold sub8 at hnear
        omega
    have hpos : sub8 b2.toNat e.r.rx.del = s - e.nDel := by
      rw [hb2, hdel]
      unfold sub8
      omega
    simp only [hpos] at x3
    have hsM : s - e.nDel < e.r.maxPkt := by omega
    have hslot : ∀ E', s < E' → E ≤ E' → ∀ j p, j < r'.maxPkt → r'.rx.pkts[(r'.rx.pos + j) % r'.maxPkt]? = some p →
        p.ready = true →
        e.nDel + j < E' ∧ (∃ g, L[e.nDel + j]? = some g ∧ g.pl = p.data ∧ g.w = p.eom) ∧ p.start < p.data.length ∧
        (j ≠ 0 → p.start = 0) := by
      intro E' hE1 hE2 j p hj hp hr
      rw [m1] at hj
      rw [m1, x1, x3] at hp
      have hold : e.r.rx.pkts[(e.r.rx.pos + j) % e.r.maxPkt]? = some p →
          e.nDel + j < E' ∧ (∃ g, L[e.nDel + j]? = some g ∧ g.pl = p.data ∧ g.w = p.eom) ∧ p.start < p.data.length ∧
          (j ≠ 0 → p.start = 0) := by
        intro hp'
        obtain ⟨o1, o2⟩ := h.slots j p hj hp' hr
        exact ⟨by omega, o2⟩
      split at hp
      · exact hold hp
      · rw [List.getElem?_set] at hp
        by_cases c : j = s - e.nDel
        · subst c
          rw [if_pos rfl, if_pos (by rw [hx.len]; exact Nat.mod_lt _ (by omega))] at hp
          cases hp
          rw [show e.nDel + (s - e.nDel) = s by omega]
          refine ⟨hE1, ⟨g, hs2, hg1, hg2⟩, ?_, fun _ => rfl⟩
          exact List.length_pos_iff.mpr hne
        · rw [if_neg (fun c' => c (slot_inj hx.pos (by omega) hsM c'.symm))] at hp
          exact hold hp
    have hdlv : part r'.rx.pkts[r'.rx.pos]? = part e.r.rx.pkts[e.r.rx.pos]? := by
      rw [x1, x3]
      split
      · rfl
      · rename_i hnr
        rw [List.getElem?_set]
        by_cases c : (e.r.rx.pos + (s - e.nDel)) % e.r.maxPkt = e.r.rx.pos
        · rw [if_pos c, c]
          have hlt : e.r.rx.pos < e.r.rx.pkts.length := by rw [hx.len]; exact hx.pos
          rw [if_pos hlt, List.getElem?_eq_getElem hlt]
          simp only [c] at hnr
          simp [part, hnr]
        · rw [if_neg c]
    have build : ∀ E', s < E' → E ≤ E' → E' ≤ max E (s + 1) → E' ≤ L.length → r'.rx.exp = E' % 256 → Short e.r.maxPkt r'.resend →
        r'.resend.length % 2 = 0 → ∃ E', E' ≤ max E (s + 1) ∧ RecvP (e.upd r') L E' ∧ (e.upd r').nDel = e.nDel := by
      intro E' h1 h2 h0 h3 h4 h5 h6
      refine ⟨E', h0, ⟨?_, h4, by rw [e3]; omega, h3, ?_, ?_, ?_, h6⟩, e3⟩
      · rw [e3]
        show r'.rx.del = _
        rw [x2]
        exact hdel
      · rw [e3]
        exact hslot E' h1 h2
      · rw [e3]
        show e.delivered = _ ++ part r'.rx.pkts[r'.rx.pos]?
        rw [hdlv]
        exact h.dlv
      · show Short r'.maxPkt r'.resend
        rw [m1]
        exact h5
    rcases hexp' with ⟨c1, c2, c3, _⟩ | ⟨c1, c2, c3, c4, _⟩ | ⟨c1, c2, c3, c4, _⟩
    · have hsE : s = E := by
        rw [hb2, hexp] at c1
        omega
      refine build (E + 1) (by omega) (by omega) (by omega) (by omega) ?_ (by rw [c3]; exact h.short) (by rw [c3]; exact h.even)
      rw [c2, hexp]
      unfold u8
      omega
    · have hsE : s < E := by
        rw [seqInside_iff (by have := b2.toNat_lt; omega) hx.del hx.exp, hpos, hdel, hexp] at c2
        unfold sub8 at c2
        omega
      exact build E hsE (Nat.le_refl _) (by omega) hleL (by rw [c3]; exact hexp) (by rw [c4]; exact h.short) (by rw [c4]; exact h.even)
    · have hsE : E < s := by
        have c2' : ¬ (sub8 b2.toNat e.r.rx.del < sub8 e.r.rx.exp e.r.rx.del) := by
          rw [← seqInside_iff (by have := b2.toNat_lt; omega) hx.del hx.exp]
          simp [c2]
        rw [hpos, hdel, hexp] at c2'
        have : s ≠ E := by
          intro c
          subst c
          exact c1 (by rw [hb2, hexp])
        unfold sub8 at c2'
        omega
      have hsh := requestResend_short (r := r1) (M := e.r.maxPkt) (a := e.r.rx.exp) (b := sub8 b2.toNat 1)
        (by rw [hk.resend]; exact h.short) (by rw [hk.resend]; exact h.even) hx.exp (Nat.mod_lt _ (by omega)) (by
          rw [hb2, hexp]
          unfold sub8
          omega)
      refine build (s + 1) (by omega) (by omega) (by omega) (by omega) ?_ (by rw [c4]; exact hsh.1) (by rw [c4]; exact hsh.2)
      rw [c3, hb2]
      unfold u8
      omega

theorem SysInv.winA {s : Sys} {La Lb : List G} {Qa Qb : List XPkt} {Ea Eb : Nat} (h : SysInv s La Lb Qa Qb Ea Eb) :
    Lb.length ≤ s.a.nDel + s.a.r.maxPkt := by
  have h1 := h.sb.len
  have h2 := h.ib.tx.qmax
  have h3 := h.lba.ack
  have h4 := h.lba.win
  omega

/-- Processing a packet at the first end. -/
theorem SysInv.process {s : Sys} {La Lb : List G} {Qa Qb : List XPkt} {Ea Eb : Nat} (h : SysInv s La Lb Qa Qb Ea Eb)
    (hsum : s.a.r.maxPkt + s.b.r.maxPkt ≤ 256) {p : Pk} (hp : p ∈ s.ba) (hf : Fresh s.a p) :
    ∃ r1 res Qa' Ea', s.a.r.process p.bytes = some (r1, res) ∧
      SysInv { s with a := s.a.upd r1 } La Lb Qa' Qb Ea' Eb ∧ r1.maxPkt = s.a.r.maxPkt ∧
      r1.rx.del = s.a.r.rx.del ∧ s.a.nDel = (s.a.upd r1).nDel ∧ Ea' ≤ max Ea (p.low + s.b.r.maxPkt) ∧
      (s.a.upd r1).nAck ≤ max s.a.nAck p.ack := by
  obtain ⟨n1, n2, hform⟩ := h.lba.net p hp
  have hta := h.ia.tx.ack
  have hts := h.ia.tx.send_lt
  have hmaxM := h.ia.tx.maxM
  have hqm := h.ia.tx.qmax
  have hwin := h.winA
  have hlab := h.lab.win
  obtain ⟨r1, res, Qa', d, hpr, sp⟩ := process_spec h.ia p.bytes
    (form_good hform h.ia.tx (t := s.a.r.maxPkt) hmaxM hsum)
  have hdle := sp.le
  have hm255 := h.ia.rx.m255
  have e1 : (s.a.upd r1).nSent = s.a.nSent := by simp only [End.upd, sp.send, sub8_self hts]; omega
  have e2 : (s.a.upd r1).nAck = s.a.nAck + d := by
    simp only [End.upd, sp.acked]
    unfold sub8
    omega
  -- the acknowledgement is one the peer really gave
  have hack : s.a.nAck + d ≤ max s.a.nAck p.ack := by
    rcases sp.ack with hd | ⟨b0, b1, rest, hb, ht, hb1⟩
    · omega
    · rw [form_ack hform hb ht, sp.acked, h.sa.ack] at hb1
      have hfr := hf.2
      omega
  have hlack := h.lab.ack
  have hS : SendP (s.a.upd r1) La Qa' := by
    have hl := congrArg List.length sp.norm
    simp only [List.length_map, List.length_drop] at hl
    have hlen := h.sa.len
    refine ⟨by rw [e1]; exact h.sa.sent, ?_, by rw [e2, hl]; omega, ?_, h.sa.acc, h.sa.ne⟩
    · rw [e2]
      show r1.tx.acked = _
      rw [sp.acked, h.sa.ack]
      omega
    · intro j
      rw [e2, sp.norm, List.getElem?_drop, h.sa.norm, Nat.add_assoc]
  have hR : ∃ Ea', Ea' ≤ max Ea (p.low + s.b.r.maxPkt) ∧ RecvP (s.a.upd r1) Lb Ea' ∧ (s.a.upd r1).nDel = s.a.nDel ∧ r1.rx.del = s.a.r.rx.del := by
    rcases sp.recv with hk | ⟨r0, b0, b1, b2, payload, hb, ht, hne, hlen, hk, htd⟩
    · have e3 : (s.a.upd r1).nDel = s.a.nDel := by simp only [End.upd, hk.rx, sub8_self h.ia.rx.del]; omega
      exact ⟨Ea, by omega, h.ra.frame hk.rx hk.maxPkt e3 rfl hk.resend, e3, by rw [hk.rx]⟩
    · obtain ⟨q, g, f1, f0, f2, f3, f4, f5⟩ := form_data hform hb ht hne
      obtain ⟨E', hE, hR, e3⟩ := h.ra.takeData h.ia.rx hk hlen htd f1 f2 f3 f4 f5 hne hf.1 hwin
      refine ⟨E', by omega, hR, e3, ?_⟩
      have h1 := hR.del
      have h2 := h.ra.del
      rw [e3] at h1
      have h3 : r1.rx.del = s.a.nDel % 256 := h1
      omega
  obtain ⟨Ea', hE, hR, e3, e4⟩ := hR
  refine ⟨r1, res, Qa', Ea', hpr, ⟨sp.inv, h.ib, hS, h.sb, hR, h.rb, ?_, ?_⟩, sp.maxPkt, e4, e3.symm, hE,
    by rw [e2]; exact hack⟩
  · have := h.lab.sender (x' := s.a.upd r1) (ps := []) (L' := La) ⟨[], by simp⟩ (by rw [e2]; omega) (by rw [e2]; omega)
      (by rw [e3]; omega) (by
        show r1.tx.max ≤ _
        rcases sp.win with hw | ⟨b0, b1, b2, rest, hb, ht, hw, _⟩
        · rw [hw]
          exact hlab
        · have := form_init hform hb ht
          omega) sp.maxPkt (by simp)
    simpa using this
  · exact h.lba.receiver (by rw [e3]; omega) sp.maxPkt

/-- Delivering at the first end. -/
theorem SysInv.deliver {s : Sys} {La Lb : List G} {Qa Qb : List XPkt} {Ea Eb : Nat} (h : SysInv s La Lb Qa Qb Ea Eb)
    (take : Option Nat) :
    ∃ r' e d m, s.a.r.deliver take = some (r', e, d, m) ∧
      SysInv { s with a := { (s.a.upd r') with delivered := s.a.delivered ++ mark d m } } La Lb Qa Qb Ea Eb ∧
      r'.maxPkt = s.a.r.maxPkt ∧ r'.tx = s.a.r.tx := by
  obtain ⟨r', e, d, m, hd, hi, k1, k2, k3, k4, k5, k6, hc⟩ := deliver_spec h.ia take
  have hta := h.ia.tx.ack
  have hts := h.ia.tx.send_lt
  have hdel := h.ia.rx.del
  have e1 : (s.a.upd r').nSent = s.a.nSent := by simp only [End.upd, k1, sub8_self hts]; omega
  have e2 : (s.a.upd r').nAck = s.a.nAck := by simp only [End.upd, k1, sub8_self hta]; omega
  have build : ∀ n, (s.a.upd r').nDel = s.a.nDel + n →
      RecvP { (s.a.upd r') with delivered := s.a.delivered ++ mark d m } Lb Ea →
      SysInv { s with a := { (s.a.upd r') with delivered := s.a.delivered ++ mark d m } } La Lb Qa Qb Ea Eb := by
    intro n e3 hR
    refine ⟨hi, h.ib, h.sa.frame e1 (by show r'.tx.acked = _; rw [k1]) e2 rfl rfl, h.sb, hR, h.rb, ?_, ?_⟩
    · have := h.lab.sender (x' := { (s.a.upd r') with delivered := s.a.delivered ++ mark d m }) (ps := []) (L' := La)
        ⟨[], by simp⟩ (by simp only [e2]; omega) (by simp only [e2]; exact h.lab.ack) (by simp only [e3]; omega)
        (by show r'.tx.max ≤ _; rw [k1]; exact h.lab.win) k2 (by simp)
      simpa using this
    · exact h.lba.receiver (by simp only [e3]; omega) k2
  refine ⟨r', e, d, m, hd, ?_, k2, k1⟩
  rcases hc with ⟨hx, hd0, hm0⟩ | ⟨hp, hr, ⟨hd1, hm1, hpk, hpos, hdl⟩ | ⟨n, hn, hd1, hm1, hpk, hpos, hdl⟩⟩
  · have e3 : (s.a.upd r').nDel = s.a.nDel := by simp only [End.upd, hx, sub8_self hdel]; omega
    refine build 0 e3 (h.ra.frame hx k2 e3 ?_ k4)
    simp [hd0, mark]
  · -- the whole packet
    have e3 : (s.a.upd r').nDel = s.a.nDel + 1 := by
      simp only [End.upd, hdl]
      unfold sub8 u8
      omega
    have hM := h.ia.rx.pos
    obtain ⟨s1, ⟨g, s2, s3, s4⟩, s5, _⟩ := h.ra.slots 0 (s.a.r.rx.pkts[s.a.r.rx.pos]) (by omega) (by
      rw [Nat.add_zero, Nat.mod_eq_of_lt hM, List.getElem?_eq_getElem hp]) hr
    rw [Nat.add_zero] at s2
    have hgl := (List.getElem?_eq_some_iff.mp s2).1
    refine build 1 e3 ⟨?_, ?_, by simp only [e3]; omega, h.ra.leL, ?_, ?_, ?_, ?_⟩
    · simp only [e3]
      show r'.rx.del = _
      rw [hdl, h.ra.del]
      unfold u8
      omega
    · show r'.rx.exp = _
      rw [k6]
      exact h.ra.exp
    · intro j q hj hq hqr
      simp only [e3]
      replace hj : j < s.a.r.maxPkt := by rw [← k2]; exact hj
      replace hq : r'.rx.pkts[(r'.rx.pos + j) % r'.maxPkt]? = some q := hq
      rw [hpos, k2, slot_succ hM, hpk, List.getElem?_set] at hq
      by_cases c : j + 1 = s.a.r.maxPkt
      · rw [c, Nat.add_mod_right, Nat.mod_eq_of_lt hM, if_pos rfl, if_pos hp] at hq
        cases hq
        simp at hqr
      · rw [if_neg ?_] at hq
        · obtain ⟨o1, o2, o3, o4⟩ := h.ra.slots (j + 1) q (by omega) hq hqr
          refine ⟨by omega, ?_, o3, fun _ => o4 (by omega)⟩
          rw [show s.a.nDel + 1 + j = s.a.nDel + (j + 1) by omega]
          exact o2
        · intro c'
          have := slot_inj (i := 0) (j := j + 1) hM (by omega) (by omega)
            (by rw [Nat.add_zero, Nat.mod_eq_of_lt hM]; exact c')
          omega
    · simp only [e3]
      show s.a.delivered ++ mark d m = _ ++ part r'.rx.pkts[r'.rx.pos]?
      have hpart : part s.a.r.rx.pkts[s.a.r.rx.pos]? =
          (s.a.r.rx.pkts[s.a.r.rx.pos].data.take s.a.r.rx.pkts[s.a.r.rx.pos].start).map (fun b => (b, false)) := by
        rw [List.getElem?_eq_getElem hp]
        simp [part, hr]
      have hpart' : part r'.rx.pkts[r'.rx.pos]? = [] := by
        rw [hpos, hpk, List.getElem?_set]
        by_cases c : s.a.r.rx.pos = (s.a.r.rx.pos + 1) % s.a.r.maxPkt
        · rw [if_pos c, if_pos hp]
          simp [part]
        · rw [if_neg c]
          cases hq : s.a.r.rx.pkts[(s.a.r.rx.pos + 1) % s.a.r.maxPkt]? with
          | none => rfl
          | some q =>
            simp only [part]
            split
            · rename_i hqr
              have hM1 : 1 < s.a.r.maxPkt := by
                by_cases c1 : 1 < s.a.r.maxPkt
                · exact c1
                · exfalso
                  have : s.a.r.maxPkt = 1 := by omega
                  rw [this, Nat.mod_one] at c
                  omega
              obtain ⟨_, _, _, o4⟩ := h.ra.slots 1 q hM1 hq hqr
              rw [o4 (by omega)]
              rfl
            · rfl
      rw [hpart', List.append_nil, h.ra.dlv, hpart, List.append_assoc, hd1, hm1,
        ← mark_append _ _ (by rw [Ne, List.drop_eq_nil_iff]; omega), List.take_append_drop, ← s3, ← s4,
        List.take_succ, s2]
      simp
    · show Short r'.maxPkt r'.resend
      rw [k2, k4]
      exact h.ra.short
    · show r'.resend.length % 2 = 0
      rw [k4]
      exact h.ra.even
  · -- a part of it
    have e3 : (s.a.upd r').nDel = s.a.nDel := by
      simp only [End.upd, hdl, sub8_self hdel]
      omega
    have hM := h.ia.rx.pos
    refine build 0 e3 ⟨?_, ?_, by simp only [e3]; exact h.ra.le, h.ra.leL, ?_, ?_, ?_, ?_⟩
    · simp only [e3]
      show r'.rx.del = _
      rw [hdl]
      exact h.ra.del
    · show r'.rx.exp = _
      rw [k6]
      exact h.ra.exp
    · intro j q hj hq hqr
      simp only [e3]
      replace hj : j < s.a.r.maxPkt := by rw [← k2]; exact hj
      replace hq : r'.rx.pkts[(r'.rx.pos + j) % r'.maxPkt]? = some q := hq
      rw [hpos, k2, hpk, List.getElem?_set] at hq
      by_cases c : j = 0
      · subst c
        rw [Nat.add_zero, Nat.mod_eq_of_lt hM, if_pos rfl, if_pos hp] at hq
        cases hq
        obtain ⟨o1, o2, o3, o4⟩ := h.ra.slots 0 (s.a.r.rx.pkts[s.a.r.rx.pos]) (by omega) (by
          rw [Nat.add_zero, Nat.mod_eq_of_lt hM, List.getElem?_eq_getElem hp]) hr
        exact ⟨o1, o2, by simp only; omega, by simp⟩
      · rw [if_neg ?_] at hq
        · exact h.ra.slots j q hj hq hqr
        · intro c'
          have := slot_inj (i := 0) (j := j) hM (by omega) (by omega)
            (by rw [Nat.add_zero, Nat.mod_eq_of_lt hM]; exact c')
          omega
    · simp only [e3]
      show s.a.delivered ++ mark d m = _ ++ part r'.rx.pkts[r'.rx.pos]?
      rw [hpos, hpk, List.getElem?_set, if_pos rfl, if_pos hp, h.ra.dlv, List.append_assoc]
      congr 1
      rw [List.getElem?_eq_getElem hp, hd1, hm1, mark_false]
      simp only [part, hr, if_true]
      rw [← List.map_append, ← List.take_add]
    · show Short r'.maxPkt r'.resend
      rw [k2, k4]
      exact h.ra.short
    · show r'.resend.length % 2 = 0
      rw [k4]
      exact h.ra.even

end Gensio.Relpkt
