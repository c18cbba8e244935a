import Verif.Lemmas.Relpkt2

/-! The invariant of two ends of the reliable packet filter connected by a network. -/

namespace Gensio.Relpkt

/-- A packet accepted from the user: its data, the end of message bit that is sent, and whether the message of the user
really ended with it. -/
structure G where
  pl : List UInt8
  w : Bool
  a : Bool
deriving Repr, DecidableEq

/-- The bytes of packet number `s`, with zero for the ack. -/
def wire (s : Nat) (g : G) : List UInt8 := [UInt8.ofNat (0x20 + g.w.toNat), 0, UInt8.ofNat s] ++ g.pl

/-- Pairs of a resend request are short ranges. -/
def Short (M : Nat) : List UInt8 → Prop
  | a :: b :: rest => sub8 b.toNat a.toNat < M ∧ Short M rest
  | _ => True

/-- What an end knows as sender of the packets `L`. -/
structure SendP (e : End) (L : List G) (Q : List XPkt) : Prop where
  sent : e.nSent = L.length
  ack : e.r.tx.acked = e.nAck % 256
  len : e.nAck + Q.length = L.length
  norm : ∀ j, (Q.map XPkt.norm)[j]? = L[e.nAck + j]?.map (fun g => (wire (e.nAck + j) g, g.w))
  acc : e.accepted = L.flatMap (fun g => mark g.pl g.a)
  ne : ∀ g ∈ L, g.pl ≠ [] ∧ (g.a = true → g.w = true)

/-- The part of the packet in front that was delivered. -/
def part : Option RPkt → List (UInt8 × Bool)
  | some p => if p.ready then (p.data.take p.start).map (fun b => (b, false)) else []
  | none => []

/-- What an end knows as receiver of the packets `L`. -/
structure RecvP (e : End) (L : List G) (E : Nat) : Prop where
  del : e.r.rx.del = e.nDel % 256
  exp : e.r.rx.exp = E % 256
  le : e.nDel ≤ E
  leL : E ≤ L.length
  slots : ∀ j p, j < e.r.maxPkt → e.r.rx.pkts[(e.r.rx.pos + j) % e.r.maxPkt]? = some p → p.ready = true →
    e.nDel + j < E ∧ (∃ g, L[e.nDel + j]? = some g ∧ g.pl = p.data ∧ g.w = p.eom) ∧ p.start < p.data.length ∧
    (j ≠ 0 → p.start = 0)
  dlv : e.delivered = (L.take e.nDel).flatMap (fun g => mark g.pl g.w) ++ part e.r.rx.pkts[e.r.rx.pos]?
  short : Short e.r.maxPkt e.r.resend
  even : e.r.resend.length % 2 = 0

/-- The form of a packet in the network, sent by an end with window `M`. -/
inductive Form (M : Nat) (L : List G) (p : Pk) : Prop
  | data (s : Nat) (g : G) : p.low ≤ s → s < p.low + M → L[s]? = some g →
      p.bytes = (wire s g).set 1 (UInt8.ofNat p.ack) → Form M L p
  | ack : p.bytes = [0x20, UInt8.ofNat p.ack, 0] → Form M L p
  | init (b0 b1 b2 : UInt8) (rest : List UInt8) : p.bytes = b0 :: b1 :: b2 :: rest → b0.toNat / 16 = 1 → b2.toNat ≤ M →
      Form M L p
  | resend (rest : List UInt8) : p.bytes = 0x30 :: rest → Short M rest → Form M L p
  | close : p.bytes = [0x40, 0, 0] → Form M L p

/-- Packets sent by `x` to `y`. -/
structure LinkP (x y : End) (xy : List Pk) (L : List G) : Prop where
  ack : x.nAck ≤ y.nDel
  win : x.r.tx.max ≤ y.r.maxPkt
  net : ∀ p ∈ xy, p.low ≤ x.nAck ∧ p.ack ≤ x.nDel ∧ Form x.r.maxPkt L p

/-- The invariant of the whole system. -/
structure SysInv (s : Sys) (La Lb : List G) (Qa Qb : List XPkt) (Ea Eb : Nat) : Prop where
  ia : Inv1 s.a.r s.a.opening Qa
  ib : Inv1 s.b.r s.b.opening Qb
  sa : SendP s.a La Qa
  sb : SendP s.b Lb Qb
  ra : RecvP s.a Lb Ea
  rb : RecvP s.b La Eb
  lab : LinkP s.a s.b s.ab La
  lba : LinkP s.b s.a s.ba Lb

theorem SysInv.swap {s : Sys} {La Lb : List G} {Qa Qb : List XPkt} {Ea Eb : Nat} (h : SysInv s La Lb Qa Qb Ea Eb) :
    SysInv s.swap Lb La Qb Qa Eb Ea :=
  ⟨h.ib, h.ia, h.sb, h.sa, h.rb, h.ra, h.lba, h.lab⟩

/-! ### Sequence numbers -/

theorem ofNat_mod (n : Nat) : UInt8.ofNat (n % 256) = UInt8.ofNat n := by
  apply UInt8.toNat_inj.mp
  simp

theorem toNat_ofNat (n : Nat) : (UInt8.ofNat n).toNat = n % 256 := by simp

theorem noRev_of_short {M t : Nat} {acked send : Nat} (ha : acked < 256) (hs : send < 256)
    (hq : sub8 send acked ≤ t) (hM : t + M ≤ 256) : ∀ (n : Nat) (l : List UInt8), l.length ≤ n → Short M l →
      NoRev acked send l
  | 0, [], _, _ => trivial
  | _ + 1, [], _, _ => trivial
  | _ + 1, [_], _, _ => trivial
  | n + 1, a :: b :: rest, hl, h => by
    simp only [List.length_cons] at hl
    refine ⟨?_, noRev_of_short ha hs hq hM n rest (by omega) h.2⟩
    intro h1 h2
    have h3 := h.1
    have ha' := a.toNat_lt
    have hb' := b.toNat_lt
    rw [seqInside_iff (by omega) ha hs] at h1 h2
    unfold sub8 at *
    omega

theorem short_append {M : Nat} {a b : UInt8} (h : sub8 b.toNat a.toNat < M) : ∀ (n : Nat) (l : List UInt8), l.length ≤ n →
    l.length % 2 = 0 → Short M l → Short M (l ++ [a, b])
  | _, [], _, _, _ => ⟨h, trivial⟩
  | _, [_], _, he, _ => by simp at he
  | n + 1, c :: d :: rest, hl, he, hs => by
    simp only [List.length_cons] at hl he
    exact ⟨hs.1, short_append h n rest (by omega) (by omega) hs.2⟩

/-! ### Frames -/

theorem Form.mono {M : Nat} {L : List G} {p : Pk} (h : Form M L p) (g : List G) : Form M (L ++ g) p := by
  cases h with
  | data s g h1 h0 h2 h3 =>
    refine .data s g h1 h0 ?_ h3
    rw [List.getElem?_append_left ?_]
    · exact h2
    · exact (List.getElem?_eq_some_iff.mp h2).1
  | ack h => exact .ack h
  | init b0 b1 b2 rest h1 h2 h3 => exact .init b0 b1 b2 rest h1 h2 h3
  | resend rest h1 h2 => exact .resend rest h1 h2
  | close h => exact .close h

theorem RecvP.mono {e : End} {L : List G} {E : Nat} (h : RecvP e L E) (g : List G) : RecvP e (L ++ g) E := by
  have hl := h.leL
  have hle := h.le
  refine ⟨h.del, h.exp, h.le, by simp; omega, ?_, ?_, h.short, h.even⟩
  · intro j p hj hp hr
    obtain ⟨h1, ⟨g', h2, h3⟩, h4⟩ := h.slots j p hj hp hr
    refine ⟨h1, ⟨g', ?_, h3⟩, h4⟩
    rw [List.getElem?_append_left (by omega)]
    exact h2
  · rw [List.take_append_of_le_length (by omega)]
    exact h.dlv

theorem RecvP.frame {e e' : End} {L : List G} {E : Nat} (h : RecvP e L E) (h1 : e'.r.rx = e.r.rx)
    (h2 : e'.r.maxPkt = e.r.maxPkt) (h3 : e'.nDel = e.nDel) (h4 : e'.delivered = e.delivered)
    (h5 : e'.r.resend = e.r.resend) : RecvP e' L E := by
  refine ⟨by rw [h1, h3]; exact h.del, by rw [h1]; exact h.exp, by rw [h3]; exact h.le, h.leL, ?_, ?_, ?_, by rw [h5]; exact h.even⟩
  · rw [h1, h2, h3]; exact h.slots
  · rw [h1, h3, h4]; exact h.dlv
  · rw [h2, h5]; exact h.short

theorem SendP.frame {e e' : End} {L : List G} {Q Q' : List XPkt} (h : SendP e L Q) (h1 : e'.nSent = e.nSent)
    (h2 : e'.r.tx.acked = e.r.tx.acked) (h3 : e'.nAck = e.nAck) (h4 : Q'.map XPkt.norm = Q.map XPkt.norm)
    (h5 : e'.accepted = e.accepted) : SendP e' L Q' := by
  have hl : Q'.length = Q.length := by simpa using congrArg List.length h4
  exact ⟨by rw [h1]; exact h.sent, by rw [h2, h3]; exact h.ack, by rw [h3, hl]; exact h.len, by rw [h3, h4]; exact h.norm,
    by rw [h5]; exact h.acc, h.ne⟩

/-- The link seen by its sender, after an operation of the sender. -/
theorem LinkP.sender {x x' y : End} {xy ps : List Pk} {L L' : List G} (h : LinkP x y xy L) (hL : ∃ g, L' = L ++ g)
    (ha : x.nAck ≤ x'.nAck) (ha2 : x'.nAck ≤ y.nDel) (hd : x.nDel ≤ x'.nDel) (hw : x'.r.tx.max ≤ y.r.maxPkt)
    (hm : x'.r.maxPkt = x.r.maxPkt)
    (hp : ∀ p ∈ ps, p.low ≤ x'.nAck ∧ p.ack ≤ x'.nDel ∧ Form x.r.maxPkt L' p) : LinkP x' y (xy ++ ps) L' := by
  obtain ⟨g, hg⟩ := hL
  subst hg
  refine ⟨ha2, hw, ?_⟩
  intro p hpm
  rw [hm]
  rcases List.mem_append.mp hpm with hpm | hpm
  · obtain ⟨h1, h2, h3⟩ := h.net p hpm
    exact ⟨by omega, by omega, h3.mono g⟩
  · exact hp p hpm

/-- The link seen by its receiver, after an operation of the receiver. -/
theorem LinkP.receiver {x y y' : End} {xy : List Pk} {L : List G} (h : LinkP x y xy L) (hd : y.nDel ≤ y'.nDel)
    (hm : y'.r.maxPkt = y.r.maxPkt) : LinkP x y' xy L :=
  ⟨Nat.le_trans h.ack hd, by rw [hm]; exact h.win, h.net⟩

theorem TxQ.send_lt {t : Tx} {M : Nat} {Q : List XPkt} (h : TxQ t M Q) : t.send < 256 := by rw [h.snd]; omega

theorem sub8_self {n : Nat} (h : n < 256) : sub8 n n = 0 := by unfold sub8; omega

/-- A system in which the first end did something that leaves data and sequence numbers alone. -/
theorem SysInv.quiet {s : Sys} {La Lb : List G} {Qa Qb Qa' : List XPkt} {Ea Eb : Nat} (h : SysInv s La Lb Qa Qb Ea Eb)
    {r' : Rp} {o : Bool} (hi : Inv1 r' o Qa') (hk : Keep s.a.r r') (hn : Qa'.map XPkt.norm = Qa.map XPkt.norm)
    (hs : r'.tx.send = s.a.r.tx.send) (ha : r'.tx.acked = s.a.r.tx.acked) (hw : r'.tx.max = s.a.r.tx.max) :
    SysInv { s with a := { (s.a.upd r') with opening := o }, ab := s.ab ++ [] } La Lb Qa' Qb Ea Eb := by
  have hts := h.ia.tx.send_lt
  have hta := h.ia.tx.ack
  have hd := h.ia.rx.del
  have e1 : (s.a.upd r').nSent = s.a.nSent := by simp only [End.upd, hs, sub8_self hts]; omega
  have e2 : (s.a.upd r').nAck = s.a.nAck := by simp only [End.upd, ha, sub8_self hta]; omega
  have e3 : (s.a.upd r').nDel = s.a.nDel := by simp only [End.upd, hk.rx, sub8_self hd]; omega
  refine ⟨hi, h.ib, h.sa.frame e1 ha e2 hn rfl, h.sb, h.ra.frame hk.rx hk.maxPkt e3 rfl hk.resend, h.rb, ?_, ?_⟩
  · refine h.lab.sender ⟨[], by simp⟩ (by simp only [e2]; omega) (by simp only [e2]; exact h.lab.ack)
      (by simp only [e3]; omega) ?_ hk.maxPkt (by simp)
    show r'.tx.max ≤ _
    rw [hw]
    exact h.lab.win
  · exact h.lba.receiver (by simp only [e3]; omega) hk.maxPkt

/-! ### Writing -/

theorem mark_ne {l : List UInt8} {m : Bool} : (mark l m).map Prod.fst = l := by
  induction l with
  | nil => rfl
  | cons a l ih =>
    cases l with
    | nil => rfl
    | cons b l => simp only [mark, List.map_cons]; rw [ih]

theorem emits_form {s : Sys} {La : List G} {Q : List XPkt} {Ea : Nat} {Lb : List G} {e : End} (hS : SendP e La Q)
    (hR : RecvP e Lb Ea) (hm : e.r.maxPkt ≤ 255) (hq : Q.length ≤ e.r.maxPkt) {r : Rp} (h1 : r.rx = e.r.rx) (h2 : r.maxPkt = e.r.maxPkt)
    (h3 : r.resend = e.r.resend) {b : List UInt8} (hb : Emits r Q b) :
    Form e.r.maxPkt La ⟨b, e.nAck, e.nDel⟩ := by
  have hdel : UInt8.ofNat r.rx.del = UInt8.ofNat e.nDel := by rw [h1, hR.del, ofNat_mod]
  cases hb with
  | init h =>
    refine .init _ _ _ _ rfl ?_ ?_
    · cases r.initRsp <;> decide
    · rw [toNat_ofNat, h2]
      omega
  | data k hk hs =>
    have hn := hS.norm k
    rw [List.getElem?_map, List.getElem?_eq_getElem hk] at hn
    cases hg : La[e.nAck + k]? with
    | none => rw [hg] at hn; simp at hn
    | some g =>
      rw [hg] at hn
      simp only [Option.map_some, Option.some.injEq, XPkt.norm, Prod.mk.injEq] at hn
      refine .data (e.nAck + k) g (by simp) (by simp only; omega) hg ?_
      simp only [hdel]
      rw [← hn.1, List.set_set]
  | resend h => exact .resend _ rfl (by rw [h3]; exact hR.short)
  | ack => exact .ack (by simp only [hdel])
  | close => exact .close rfl

/-- Writing at the first end. -/
theorem SysInv.write {s : Sys} {La Lb : List G} {Qa Qb : List XPkt} {Ea Eb : Nat} (h : SysInv s La Lb Qa Qb Ea Eb)
    (sg : List (List UInt8)) (eom : Bool) (ll : Lower) :
    ∃ s' La' Qa', s.stepA (.write sg eom ll) = some s' ∧ SysInv s' La' Lb Qa' Qb Ea Eb ∧
      s'.a.r.maxPkt = s.a.r.maxPkt ∧ s'.b = s.b ∧ s'.ba = s.ba ∧ s'.a.nAck = s.a.nAck ∧
      (∃ ps, s'.ab = s.ab ++ ps ∧ ps.length ≤ 1 ∧ ∀ p ∈ ps, p.low = s'.a.nAck ∧ p.ack = s'.a.nDel) := by
  have hts := h.ia.tx.send_lt
  have hta := h.ia.tx.ack
  have hd := h.ia.rx.del
  have key : ∀ (t : Tx) (n : Nat) (L' : List G) (Q1 : List XPkt), s.a.r.tx.put s.a.r.maxSize sg eom = some (t, n) →
      TxQ t s.a.r.maxPkt Q1 → t.max = s.a.r.tx.max → t.maxSize = s.a.r.tx.maxSize → t.acked = s.a.r.tx.acked →
      (∃ g, L' = La ++ g) →
      SendP { (s.a.upd { s.a.r with tx := t }) with
        accepted := s.a.accepted ++ mark (sg.flatten.take n) (eom && decide (n = sg.flatten.length)) } L' Q1 →
      ∃ s' La' Qa', s.stepA (.write sg eom ll) = some s' ∧ SysInv s' La' Lb Qa' Qb Ea Eb ∧
        s'.a.r.maxPkt = s.a.r.maxPkt ∧ s'.b = s.b ∧ s'.ba = s.ba ∧ s'.a.nAck = s.a.nAck ∧
        (∃ ps, s'.ab = s.ab ++ ps ∧ ps.length ≤ 1 ∧ ∀ p ∈ ps, p.low = s'.a.nAck ∧ p.ack = s'.a.nDel) := by
    intro t n L' Q1 hput hT hmax hsz hack hL hS
    obtain ⟨r', e, out, Q', hp, hQ', hn, k1, k2, k3, k4, k5, k6, k7, k8, k9, _, hem⟩ :=
      TxQ.push (r := { s.a.r with tx := t }) (M := s.a.r.maxPkt) hT ll
    simp only at k1 k2 k3 k4 k5 k6 k7 k8 k9
    have e1 : (s.a.upd r').nSent = (s.a.upd { s.a.r with tx := t }).nSent := by simp only [End.upd, k5]
    have e2 : (s.a.upd r').nAck = s.a.nAck := by simp only [End.upd, k4, hack, sub8_self hta]; omega
    have e2' : (s.a.upd { s.a.r with tx := t }).nAck = s.a.nAck := by simp only [End.upd, hack, sub8_self hta]; omega
    have e3 : (s.a.upd r').nDel = s.a.nDel := by simp only [End.upd, k1, sub8_self hd]; omega
    have e3' : (s.a.upd { s.a.r with tx := t }).nDel = s.a.nDel := by simp only [End.upd, sub8_self hd]; omega
    have hS' : SendP { (s.a.upd r') with
        accepted := s.a.accepted ++ mark (sg.flatten.take n) (eom && decide (n = sg.flatten.length)) } L' Q' :=
      hS.frame e1 (by simp only [End.upd]; exact k4) (by simp only [e2, e2']) hn rfl
    have hstep : s.stepA (.write sg eom ll) = some { s with
        a := { (s.a.upd r') with
          accepted := s.a.accepted ++ mark (sg.flatten.take n) (eom && decide (n = sg.flatten.length)) },
        ab := s.ab ++ out.toList.map fun b => ⟨b, (s.a.upd r').nAck, (s.a.upd r').nDel⟩ } := by
      simp only [Sys.stepA, End.step, Rp.ulWrite, hput, hp]
    refine ⟨_, L', Q', hstep, ⟨?_, h.ib, hS', h.sb, ?_, ?_, ?_, ?_⟩, k7, rfl, rfl, e2, _, rfl, ?_, ?_⟩
    · refine ⟨by show TxQ r'.tx r'.maxPkt Q'; rw [k7]; exact hQ', ⟨?_, ?_, ?_, ?_, ?_⟩, h.ia.ph.of_eq k6 ?_, ?_⟩
      · show r'.rx.pkts.length = r'.maxPkt; rw [k1, k7]; exact h.ia.rx.len
      · show r'.rx.pos < r'.maxPkt; rw [k1, k7]; exact h.ia.rx.pos
      · show r'.maxPkt ≤ 255; rw [k7]; exact h.ia.rx.m255
      · show r'.rx.exp < 256; rw [k1]; exact h.ia.rx.exp
      · show r'.rx.del < 256; rw [k1]; exact h.ia.rx.del
      · show r'.tx.max = _; rw [k2, hmax]
      · show r'.tx.maxSize ≤ r'.maxSize; rw [k3, k8, hsz]; exact h.ia.size
    · exact h.ra.frame k1 k7 e3 rfl k9
    · obtain ⟨g, hg⟩ := hL
      rw [hg]
      exact h.rb.mono g
    · refine h.lab.sender hL (by simp only [e2]; omega) (by simp only [e2]; exact h.lab.ack) (by simp only [e3]; omega)
        (by show r'.tx.max ≤ _; rw [k2, hmax]; exact h.lab.win) k7 ?_
      intro p hpm
      simp only [List.mem_map, Option.mem_toList] at hpm
      obtain ⟨b, hb, rfl⟩ := hpm
      simp only [e2, e3]
      refine ⟨Nat.le_refl _, Nat.le_refl _, ?_⟩
      have hf := emits_form (s := s) hS (h.ra.frame (e' := { (s.a.upd { s.a.r with tx := t }) with
        accepted := s.a.accepted ++ mark (sg.flatten.take n) (eom && decide (n = sg.flatten.length)) }) rfl rfl e3' rfl rfl)
        h.ia.rx.m255 (Nat.le_trans hT.qmax hT.maxM) (r := { s.a.r with tx := t }) rfl rfl rfl (hem b hb)
      simp only [e2', e3'] at hf
      exact hf
    · exact h.lba.receiver (by simp only [e3]; omega) k7
    · cases out <;> simp
    · intro p hpm
      simp only [List.mem_map] at hpm
      obtain ⟨b, _, rfl⟩ := hpm
      exact ⟨rfl, rfl⟩
  rcases h.ia.tx.put h.ia.size sg eom with hput | ⟨t, p, hput, h0, hQ, e1, e2, e3, e4, hs, hdata, hm⟩
  · refine key _ _ La Qa hput h.ia.tx rfl rfl rfl ⟨[], by simp⟩ ?_
    refine h.sa.frame ?_ rfl ?_ rfl ?_
    · simp only [End.upd, sub8_self hts]; omega
    · simp only [End.upd, sub8_self hta]; omega
    · simp [mark]
  · generalize hnn : min s.a.r.tx.maxSize sg.flatten.length = n at *
    have hn2 : sg.flatten.take s.a.r.tx.maxSize = sg.flatten.take n := by
      rw [← hnn]
      by_cases c : s.a.r.tx.maxSize ≤ sg.flatten.length
      · rw [Nat.min_eq_left c]
      · rw [Nat.min_eq_right (by omega), List.take_of_length_le (by omega), List.take_of_length_le (Nat.le_refl _)]
    refine key _ _ (La ++ [⟨sg.flatten.take n, p.eom, eom && decide (n = sg.flatten.length)⟩]) (Qa ++ [p]) hput hQ e1 e2 e3
      ⟨_, rfl⟩ ?_
    have hlen := h.sa.len
    have hack : (s.a.upd { s.a.r with tx := t }).nAck = s.a.nAck := by simp only [End.upd, e3, sub8_self hta]; omega
    refine ⟨?_, ?_, ?_, ?_, ?_, ?_⟩
    · simp only [End.upd, e4, h.sa.sent, List.length_append, List.length_cons, List.length_nil]
      unfold sub8 u8
      omega
    · simp only [hack]
      show t.acked = _
      rw [e3]
      exact h.sa.ack
    · simp only [hack, List.length_append, List.length_cons, List.length_nil]
      omega
    · intro j
      simp only [hack, List.map_append, List.map_cons, List.map_nil, List.getElem?_append, List.length_map]
      by_cases c : j < Qa.length
      · rw [if_pos c, if_pos (by omega)]
        exact h.sa.norm j
      · rw [if_neg c, if_neg (by omega), show s.a.nAck + j - La.length = j - Qa.length by omega]
        by_cases c2 : j = Qa.length
        · subst c2
          simp only [Nat.sub_self, List.getElem?_cons_zero, Option.map_some, Option.some.injEq, XPkt.norm, wire, hdata, hn2]
          have : UInt8.ofNat s.a.r.tx.send = UInt8.ofNat (s.a.nAck + Qa.length) := by
            rw [h.ia.tx.snd, h.sa.ack, ← ofNat_mod (s.a.nAck + Qa.length)]
            congr 1
            omega
          rw [this]
          rfl
        · rw [List.getElem?_eq_none (by simp; omega), List.getElem?_eq_none (by simp; omega)]
          rfl
    · simp only [h.sa.acc, List.flatMap_append, List.flatMap_cons, List.flatMap_nil, List.append_nil]
    · intro g hg
      rcases List.mem_append.mp hg with hg | hg
      · exact h.sa.ne g hg
      · simp only [List.mem_cons, List.not_mem_nil, or_false] at hg
        subst hg
        refine ⟨?_, ?_⟩
        · intro c
          have := congrArg List.length c
          simp only [List.length_take, List.length_nil] at this
          omega
        · simp only [Bool.and_eq_true, decide_eq_true_eq]
          intro ⟨c1, c2⟩
          exact hm c1 (by omega)

end Gensio.Relpkt
