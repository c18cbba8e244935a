import Verif.Lemmas.Relpkt4

/-! Properties C25, C26 and C27: the reliable packet filter (lib/gensio_relpkt.c). -/

namespace Gensio.Relpkt

/-! ### One end: no operation violates an assertion -/

/-- Operations an end can meet: the base calls `try_connect` only while opening and `try_disconnect` only afterwards;
received packets may contain anything but resend requests that run backwards inside the window. -/
def Allowed1 (e : End) : Op → Prop
  | .recv p _ => GoodReq e.r.tx p.bytes
  | .connect _ => e.opening = true
  | .disconnect _ => e.opening = false
  | _ => True

/-- The states of an end reachable from a new one. -/
inductive Reach1 (e0 : End) : End → Prop
  | refl : Reach1 e0 e0
  | step {e e' : End} {ps : List Pk} (op : Op) : Reach1 e0 e → Allowed1 e op → e.step op = some (e', ps) → Reach1 e0 e'

/-- A new end. -/
def End.init (server : Bool) (size max to : Nat) : End := ⟨Rp.init server size max to, true, [], [], 0, 0, 0⟩

theorem inv1_init (server : Bool) (size max to : Nat) (h1 : 1 ≤ max) (h2 : max ≤ 255) :
    Inv1 (Rp.init server size max to) true [] := by
  refine ⟨⟨by simp [Rp.init], by simp [Rp.init], h2, by simp [Rp.init], by simp [Rp.init], by simp [Rp.init],
    by simp [Rp.init], by simp, by simp [Rp.init]⟩, ⟨by simp [Rp.init], by simp [Rp.init]; omega, h2, by simp [Rp.init],
    by simp [Rp.init]⟩, ⟨by simp [Rp.init], by simp [Rp.init], by simp [Rp.init]⟩, by simp [Rp.init]⟩

theorem connect_spec {r : Rp} {Q : List XPkt} (h : Inv1 r true Q) (wt : Bool) :
    ∃ r' e, r.tryConnect wt = some (r', e) ∧ Inv1 r' (!(e = .ok)) Q ∧ Keep r r' ∧ r'.tx = r.tx := by
  have mk : ∀ (r' : Rp) (o : Bool), Keep r r' → r'.tx = r.tx → Ph r' o → Inv1 r' o Q := by
    intro r' o hk ht hp
    exact ⟨by rw [ht, hk.maxPkt]; exact h.tx, ⟨by rw [hk.rx, hk.maxPkt]; exact h.rx.len,
      by rw [hk.rx, hk.maxPkt]; exact h.rx.pos, by rw [hk.maxPkt]; exact h.rx.m255, by rw [hk.rx]; exact h.rx.exp,
      by rw [hk.rx]; exact h.rx.del⟩, hp, by rw [ht, hk.maxSize]; exact h.size⟩
  unfold Rp.tryConnect
  split
  · rename_i hst
    have h0 := h.ph.wait (Or.inr hst)
    split
    · split
      · exact ⟨_, _, rfl, mk _ _ ⟨rfl, rfl, rfl, rfl, rfl⟩ rfl ⟨fun _ => ⟨h0.1, rfl⟩, by simp [hst], by simp [hst]⟩,
          ⟨rfl, rfl, rfl, rfl, rfl⟩, rfl⟩
      · exact ⟨_, _, rfl, mk _ _ ⟨rfl, rfl, rfl, rfl, rfl⟩ rfl ⟨fun _ => ⟨h0.1, rfl⟩, by simp [hst], by simp [hst]⟩,
          ⟨rfl, rfl, rfl, rfl, rfl⟩, rfl⟩
    · exact ⟨_, _, rfl, mk _ _ ⟨rfl, rfl, rfl, rfl, rfl⟩ rfl ⟨fun _ => ⟨h0.1, rfl⟩, by simp [hst], by simp [hst]⟩,
        ⟨rfl, rfl, rfl, rfl, rfl⟩, rfl⟩
  · rename_i hst
    have h0 := h.ph.closed hst rfl
    split
    · exact ⟨_, _, rfl, mk _ _ ⟨rfl, rfl, rfl, rfl, rfl⟩ rfl ⟨fun _ => ⟨h0, rfl⟩, by simp, by simp⟩,
        ⟨rfl, rfl, rfl, rfl, rfl⟩, rfl⟩
    · exact ⟨_, _, rfl, mk _ _ ⟨rfl, rfl, rfl, rfl, rfl⟩ rfl ⟨fun _ => ⟨h0, rfl⟩, by simp, by simp⟩,
        ⟨rfl, rfl, rfl, rfl, rfl⟩, rfl⟩
  · rename_i hst
    have h0 := h.ph.wait (Or.inl hst)
    exact ⟨_, _, rfl, mk _ _ ⟨rfl, rfl, rfl, rfl, rfl⟩ rfl ⟨fun _ => ⟨h0.1, rfl⟩, by simp [hst], by simp [hst]⟩,
      ⟨rfl, rfl, rfl, rfl, rfl⟩, rfl⟩
  · rename_i hst
    exact ⟨_, _, rfl, mk _ _ ⟨rfl, rfl, rfl, rfl, rfl⟩ rfl (Ph.remClosed hst), ⟨rfl, rfl, rfl, rfl, rfl⟩, rfl⟩
  · rename_i hst
    exact ⟨_, _, rfl, mk _ _ ⟨rfl, rfl, rfl, rfl, rfl⟩ rfl (Ph.opened hst), ⟨rfl, rfl, rfl, rfl, rfl⟩, rfl⟩
  · rename_i hst
    have := h.ph.close (Or.inl hst)
    simp at this
  · rename_i hst
    have := h.ph.close (Or.inr hst)
    simp at this

theorem timeout_inv {r : Rp} {o : Bool} {Q : List XPkt} (h : Inv1 r o Q) :
    ∃ r' e Q', r.timeout = some (r', e) ∧ Inv1 r' o Q' ∧ Keep r r' ∧ Q'.map XPkt.norm = Q.map XPkt.norm ∧
      r'.tx.send = r.tx.send ∧ r'.tx.acked = r.tx.acked ∧ r'.tx.max = r.tx.max ∧ r'.state = r.state := by
  obtain ⟨r', e, pk, w, Q', he, ht, hQ, hn, hk, hs⟩ := timeout_spec h
  have sp := procSpec_tx (buf := []) h r' ht hQ hn hk (h.ph.of_eq hs (by rw [ht]))
  exact ⟨r', e, Q', he, sp.inv, hk, hn, by rw [ht], by rw [ht], by rw [ht], hs⟩

theorem Keep.trans {a b c : Rp} (h1 : Keep a b) (h2 : Keep b c) : Keep a c :=
  ⟨h2.rx.trans h1.rx, h2.maxPkt.trans h1.maxPkt, h2.maxSize.trans h1.maxSize, h2.resend.trans h1.resend,
    h2.sendResend.trans h1.sendResend⟩

theorem disconnect_spec {r : Rp} {Q : List XPkt} (h : Inv1 r false Q) (wt : Bool) :
    ∃ r' e Q', r.tryDisconnect wt = some (r', e) ∧ Inv1 r' false Q' ∧ Keep r r' ∧ Q'.map XPkt.norm = Q.map XPkt.norm ∧
      r'.tx.send = r.tx.send ∧ r'.tx.acked = r.tx.acked ∧ r'.tx.max = r.tx.max := by
  have mk : ∀ (r' : Rp), Keep r r' → r'.tx = r.tx → Ph r' false → Inv1 r' false Q := by
    intro r' hk ht hp
    exact ⟨by rw [ht, hk.maxPkt]; exact h.tx, ⟨by rw [hk.rx, hk.maxPkt]; exact h.rx.len,
      by rw [hk.rx, hk.maxPkt]; exact h.rx.pos, by rw [hk.maxPkt]; exact h.rx.m255, by rw [hk.rx]; exact h.rx.exp,
      by rw [hk.rx]; exact h.rx.del⟩, hp, by rw [ht, hk.maxSize]; exact h.size⟩
  have same : ∀ e : Err, ∃ r' e' Q', some (r, e) = some (r', e') ∧ Inv1 r' false Q' ∧ Keep r r' ∧
      Q'.map XPkt.norm = Q.map XPkt.norm ∧ r'.tx.send = r.tx.send ∧ r'.tx.acked = r.tx.acked ∧ r'.tx.max = r.tx.max :=
    fun e => ⟨r, e, Q, rfl, h, ⟨rfl, rfl, rfl, rfl, rfl⟩, rfl, rfl, rfl, rfl⟩
  have quiet : ∀ (r1 : Rp) (e : Err), Keep r r1 → r1.tx = r.tx → Ph r1 false →
      ∃ r' e' Q', some (r1, e) = some (r', e') ∧ Inv1 r' false Q' ∧ Keep r r' ∧
      Q'.map XPkt.norm = Q.map XPkt.norm ∧ r'.tx.send = r.tx.send ∧ r'.tx.acked = r.tx.acked ∧ r'.tx.max = r.tx.max :=
    fun r1 e hk ht hp => ⟨r1, e, Q, rfl, mk r1 hk ht hp, hk, rfl, by rw [ht], by rw [ht], by rw [ht]⟩
  have tmo : ∀ r1 : Rp, Keep r r1 → r1.tx = r.tx → Ph r1 false →
      ∃ r' e' Q', (match r1.timeout with
        | none => none
        | some (r, _) => some (r, Err.retry)) = some (r', e') ∧ Inv1 r' false Q' ∧ Keep r r' ∧
      Q'.map XPkt.norm = Q.map XPkt.norm ∧ r'.tx.send = r.tx.send ∧ r'.tx.acked = r.tx.acked ∧ r'.tx.max = r.tx.max := by
    intro r1 hk ht hp
    obtain ⟨r', e, Q', he, hi, hk', hn, h1, h2, h3, _⟩ := timeout_inv (mk r1 hk ht hp)
    rw [he]
    exact ⟨r', _, Q', rfl, hi, hk.trans hk', hn, by rw [h1, ht], by rw [h2, ht], by rw [h3, ht]⟩
  have hcl : r.state = .closed ∨ r.state = .remClosed →
      ∃ r' e' Q', (if !r.sendClose then some (r, Err.ok)
        else if wt then
          match r.timeout with
          | none => none
          | some (r, _) => some (r, .retry)
        else some (r, .inProgress)) = some (r', e') ∧ Inv1 r' false Q' ∧ Keep r r' ∧
      Q'.map XPkt.norm = Q.map XPkt.norm ∧ r'.tx.send = r.tx.send ∧ r'.tx.acked = r.tx.acked ∧ r'.tx.max = r.tx.max := by
    intro _
    split
    · exact same _
    · split
      · exact tmo r ⟨rfl, rfl, rfl, rfl, rfl⟩ rfl h.ph
      · exact same _
  unfold Rp.tryDisconnect
  split
  · exact same _
  · exact hcl (Or.inl ‹_›)
  · exact hcl (Or.inr ‹_›)
  · split
    · exact quiet _ _ ⟨rfl, rfl, rfl, rfl, rfl⟩ rfl ⟨by simp, by simp, by simp⟩
    · exact quiet _ _ ⟨rfl, rfl, rfl, rfl, rfl⟩ rfl ⟨by simp, by simp, by simp⟩
  · split
    · exact same _
    · simp only
      by_cases c : r.tx.acked = r.tx.send
      · rw [if_pos c]
        split
        · exact tmo _ ⟨rfl, rfl, rfl, rfl, rfl⟩ rfl ⟨by simp, by simp, by simp⟩
        · exact quiet _ _ ⟨rfl, rfl, rfl, rfl, rfl⟩ rfl ⟨by simp, by simp, by simp⟩
      · rw [if_neg c]
        split
        · exact tmo r ⟨rfl, rfl, rfl, rfl, rfl⟩ rfl h.ph
        · exact same _
  · rename_i hst
    split
    · split
      · exact quiet _ _ ⟨rfl, rfl, rfl, rfl, rfl⟩ rfl ⟨by simp [hst], by simp, by simp⟩
      · exact quiet _ _ ⟨rfl, rfl, rfl, rfl, rfl⟩ rfl ⟨by simp [hst], by simp, by simp⟩
    · exact same _
  · rename_i hst
    have := h.ph.wait (Or.inr hst)
    simp at this

theorem llWrite_inv {r : Rp} {o : Bool} {Q : List XPkt} (h : Inv1 r o Q) (buf : List UInt8) (hg : GoodReq r.tx buf)
    (take : Option Nat) : ∃ r' e d m Q', r.llWrite buf take = some (r', e, d, m) ∧ Inv1 r' o Q' := by
  unfold Rp.llWrite
  split
  · exact ⟨r, _, _, _, Q, rfl, h⟩
  · split
    · obtain ⟨r', e, d, m, hd, hi, _⟩ := deliver_spec h take
      exact ⟨r', e, d, m, Q, hd, hi⟩
    · split
      · exact ⟨r, _, _, _, Q, rfl, h⟩
      · obtain ⟨r1, res, Q', d, hp, sp⟩ := process_spec h buf hg
        rw [hp]
        cases res with
        | deliver =>
          obtain ⟨r', e, d, m, hd, hi, _⟩ := deliver_spec sp.inv take
          exact ⟨r', e, d, m, Q', hd, hi⟩
        | stop => exact ⟨r1, _, _, _, Q', rfl, sp.inv⟩
        | proto => exact ⟨r1, _, _, _, Q', rfl, sp.inv⟩

theorem ulWrite_inv {r : Rp} {o : Bool} {Q : List XPkt} (h : Inv1 r o Q) (sg : List (List UInt8)) (eom : Bool)
    (ll : Lower) : ∃ r' e n out Q', r.ulWrite sg eom ll = some (r', e, n, out) ∧ Inv1 r' o Q' := by
  have key : ∀ (t : Tx) (n : Nat) (Q1 : List XPkt), r.tx.put r.maxSize sg eom = some (t, n) → TxQ t r.maxPkt Q1 →
      t.max = r.tx.max → t.maxSize = r.tx.maxSize →
      ∃ r' e n out Q', r.ulWrite sg eom ll = some (r', e, n, out) ∧ Inv1 r' o Q' := by
    intro t n Q1 hput hT hmax hsz
    obtain ⟨r', e, out, Q', hp, hQ', hn, k1, k2, k3, k4, k5, k6, k7, k8, _⟩ :=
      TxQ.push (r := { r with tx := t }) (M := r.maxPkt) hT ll
    simp only at k1 k2 k3 k4 k5 k6 k7 k8
    refine ⟨r', e, n, out, Q', by simp only [Rp.ulWrite, hput, hp], ⟨by rw [k7]; exact hQ', ⟨?_, ?_, ?_, ?_, ?_⟩,
      h.ph.of_eq k6 (by rw [k2, hmax]), by rw [k3, k8, hsz]; exact h.size⟩⟩
    · rw [k1, k7]; exact h.rx.len
    · rw [k1, k7]; exact h.rx.pos
    · rw [k7]; exact h.rx.m255
    · rw [k1]; exact h.rx.exp
    · rw [k1]; exact h.rx.del
  rcases h.tx.put h.size sg eom with hput | ⟨t, p, hput, h0, hQ, e1, e2, _⟩
  · exact key _ _ Q hput h.tx rfl rfl
  · exact key _ _ _ hput hQ e1 e2

theorem step_inv1 {e : End} {Q : List XPkt} (h : Inv1 e.r e.opening Q) (op : Op) (ha : Allowed1 e op) :
    ∃ e' ps Q', e.step op = some (e', ps) ∧ Inv1 e'.r e'.opening Q' := by
  cases op with
  | write sg eom ll =>
    obtain ⟨r', er, n, out, Q', hw, hi⟩ := ulWrite_inv h sg eom ll
    exact ⟨_, _, Q', by simp only [End.step, hw]; rfl, hi⟩
  | recv p take =>
    obtain ⟨r', er, d, m, Q', hw, hi⟩ := llWrite_inv h p.bytes ha take
    exact ⟨_, _, Q', by simp only [End.step, hw]; rfl, hi⟩
  | poll take =>
    obtain ⟨r', er, d, m, Q', hw, hi⟩ := llWrite_inv h [] (by intro c; exact absurd c (by decide)) take
    exact ⟨_, _, Q', by simp only [End.step, hw]; rfl, hi⟩
  | timeout =>
    obtain ⟨r', er, Q', hw, hi, _⟩ := timeout_inv h
    exact ⟨_, _, Q', by simp only [End.step, hw]; rfl, hi⟩
  | connect wt =>
    simp only [Allowed1] at ha
    rw [ha] at h
    obtain ⟨r', er, hw, hi, _⟩ := connect_spec h wt
    exact ⟨_, _, Q, by simp only [End.step, hw]; rfl, hi⟩
  | disconnect wt =>
    simp only [Allowed1] at ha
    have h' := h
    rw [ha] at h'
    obtain ⟨r', er, Q', hw, hi, _⟩ := disconnect_spec h' wt
    refine ⟨_, _, Q', by simp only [End.step, hw]; rfl, ?_⟩
    show Inv1 r' e.opening Q'
    rw [ha]
    exact hi

theorem reach1_inv {server : Bool} {size max to : Nat} (h1 : 1 ≤ max) (h2 : max ≤ 255) {e : End}
    (hr : Reach1 (End.init server size max to) e) : ∃ Q, Inv1 e.r e.opening Q := by
  induction hr with
  | refl => exact ⟨[], inv1_init server size max to h1 h2⟩
  | step op _ ha hs ih =>
    obtain ⟨Q, hq⟩ := ih
    obtain ⟨e', ps, Q', hs', hi⟩ := step_inv1 hq op ha
    rw [hs] at hs'
    cases hs'
    exact ⟨Q', hi⟩

/-- **C27, partial.**  An end with a window of 1 to 255 packets never fails an assertion, divides by zero or accesses
memory outside its buffers, whatever it receives and whatever its user, its timer and the lower layer do, except that
resend requests must not run backwards inside the window (see `C27_violated`). -/
theorem C27_partial (server : Bool) (size max to : Nat) (h1 : 1 ≤ max) (h2 : max ≤ 255) {e : End}
    (hr : Reach1 (End.init server size max to) e) (op : Op) (ha : Allowed1 e op) : ∃ x, e.step op = some x := by
  obtain ⟨Q, hq⟩ := reach1_inv h1 h2 hr
  obtain ⟨e', ps, _, hs, _⟩ := step_inv1 hq op ha
  exact ⟨_, hs⟩

/-! ### Two ends -/

/-- An operation of the first end of a system that changes no sequence numbers. -/
theorem upd_upd {e : End} {r1 r' : Rp} (ht : r'.tx = r1.tx) (hd : r1.rx.del = e.r.rx.del) (ha : r1.tx.acked < 256)
    (hs : r1.tx.send < 256) (hx : e.r.rx.del < 256) : (e.upd r1).upd r' = e.upd r' := by
  simp only [End.upd, ht, hd, sub8_self ha, sub8_self hs, sub8_self hx, Nat.add_zero]

theorem upd_self {e : End} {Q : List XPkt} (h : Inv1 e.r e.opening Q) : e.upd e.r = e := by
  simp only [End.upd, sub8_self h.tx.ack, sub8_self h.tx.send_lt, sub8_self h.rx.del, Nat.add_zero]

/-- What an end can do in a system with the packets `net` on their way to it; the network delivers only packets that are
not too old. -/
def Allowed (e : End) (net : List Pk) : Op → Prop
  | .recv p _ => p ∈ net ∧ Fresh e p
  | .connect _ => e.opening = true
  | .disconnect _ => e.opening = false
  | _ => True

/-- How far an operation can move the receive window and the acknowledged packets. -/
def Moves (Ea Ea' : Nat) (s s' : Sys) : Op → Prop
  | .recv p _ => Ea' ≤ max Ea (p.low + s.b.r.maxPkt) ∧ s'.a.nAck ≤ max s.a.nAck p.ack
  | _ => Ea' = Ea ∧ s'.a.nAck = s.a.nAck

theorem SysInv.llWrite {s : Sys} {La Lb : List G} {Qa Qb : List XPkt} {Ea Eb : Nat} (h : SysInv s La Lb Qa Qb Ea Eb)
    (hsum : s.a.r.maxPkt + s.b.r.maxPkt ≤ 256) {p : Pk} (hp : p.bytes = [] ∨ (p ∈ s.ba ∧ Fresh s.a p)) (take : Option Nat) :
    ∃ r' e d m Qa' Ea', s.a.r.llWrite p.bytes take = some (r', e, d, m) ∧
      SysInv { s with a := { (s.a.upd r') with delivered := s.a.delivered ++ mark d m } } La Lb Qa' Qb Ea' Eb ∧
      r'.maxPkt = s.a.r.maxPkt ∧ (p.bytes = [] → Ea' = Ea ∧ (s.a.upd r').nAck = s.a.nAck) ∧
      Ea' ≤ max Ea (p.low + s.b.r.maxPkt) ∧ (s.a.upd r').nAck ≤ max s.a.nAck p.ack := by
  have hself : SysInv { s with a := { (s.a.upd s.a.r) with delivered := s.a.delivered ++ mark [] false } }
      La Lb Qa Qb Ea Eb := by
    rw [upd_self h.ia]
    simp only [mark, List.append_nil]
    exact h
  have hself2 : (s.a.upd s.a.r).nAck = s.a.nAck := by rw [upd_self h.ia]
  unfold Rp.llWrite
  split
  · exact ⟨_, _, _, _, Qa, Ea, rfl, hself, rfl, fun _ => ⟨rfl, hself2⟩, by omega, by omega⟩
  · split
    · obtain ⟨r', e, d, m, hd, hi, hm, ht⟩ := h.deliver take
      have hn : (s.a.upd r').nAck = s.a.nAck := by simp only [End.upd, ht, sub8_self h.ia.tx.ack]; omega
      exact ⟨_, _, _, _, Qa, Ea, hd, hi, hm, fun _ => ⟨rfl, hn⟩, by omega, by omega⟩
    · rename_i hnil
      split
      · exact ⟨_, _, _, _, Qa, Ea, rfl, hself, rfl, fun _ => ⟨rfl, hself2⟩, by omega, by omega⟩
      · obtain ⟨hmem, hf⟩ := hp.resolve_left hnil
        obtain ⟨r1, res, Qa', Ea', hpr, hi, hm, hdel, _, hE, hA⟩ := h.process hsum hmem hf
        rw [hpr]
        have hstop : SysInv { s with a := { (s.a.upd r1) with delivered := s.a.delivered ++ mark [] false } }
            La Lb Qa' Qb Ea' Eb := by
          simp only [mark, List.append_nil]
          exact hi
        cases res with
        | deliver =>
          obtain ⟨r', e, d, m, hd, hi', hm', ht⟩ := hi.deliver take
          have hu : ({ s with a := s.a.upd r1 } : Sys).a.upd r' = s.a.upd r' :=
            upd_upd ht hdel hi.ia.tx.ack hi.ia.tx.send_lt h.ia.rx.del
          rw [hu] at hi'
          refine ⟨_, _, _, _, Qa', Ea', hd, hi', hm'.trans hm, fun c => absurd c hnil, hE, ?_⟩
          rw [← hu]
          have : (({ s with a := s.a.upd r1 } : Sys).a.upd r').nAck = (s.a.upd r1).nAck := by
            simp only [End.upd, ht]
            have h1 := hi.ia.tx.ack
            simp only [End.upd] at h1
            rw [sub8_self h1]
            omega
          rw [this]
          exact hA
        | stop => exact ⟨_, _, _, _, Qa', Ea', rfl, hstop, hm, fun c => absurd c hnil, hE, hA⟩
        | proto => exact ⟨_, _, _, _, Qa', Ea', rfl, hstop, hm, fun c => absurd c hnil, hE, hA⟩

/-- Every operation of the first end keeps the invariant. -/
theorem SysInv.stepA {s : Sys} {La Lb : List G} {Qa Qb : List XPkt} {Ea Eb : Nat} (h : SysInv s La Lb Qa Qb Ea Eb)
    (hsum : s.a.r.maxPkt + s.b.r.maxPkt ≤ 256) (op : Op) (ha : Allowed s.a s.ba op) :
    ∃ s' La' Qa' Ea', s.stepA op = some s' ∧ SysInv s' La' Lb Qa' Qb Ea' Eb ∧ s'.a.r.maxPkt = s.a.r.maxPkt ∧
      s'.b = s.b ∧ s'.ba = s.ba ∧ Moves Ea Ea' s s' op ∧
      (∃ ps, s'.ab = s.ab ++ ps ∧ ps.length ≤ 1 ∧ ∀ p ∈ ps, p.low = s'.a.nAck ∧ p.ack = s'.a.nDel) := by
  have hquiet : ∀ {r' : Rp} {o : Bool}, r'.tx.acked = s.a.r.tx.acked →
      ({ s with a := { (s.a.upd r') with opening := o }, ab := s.ab ++ [] } : Sys).a.nAck = s.a.nAck := by
    intro r' o hr
    simp only [End.upd, hr, sub8_self h.ia.tx.ack]
    omega
  cases op with
  | write sg eom ll =>
    obtain ⟨s', La', Qa', hs, hi, hm, hb, hba, hA, hps⟩ := h.write sg eom ll
    exact ⟨s', La', Qa', Ea, hs, hi, hm, hb, hba, ⟨rfl, hA⟩, hps⟩
  | recv p take =>
    obtain ⟨r', e, d, m, Qa', Ea', hs, hi, hm, _, hE, hA⟩ := h.llWrite hsum (Or.inr ha) take
    refine ⟨{ s with a := { (s.a.upd r') with delivered := s.a.delivered ++ mark d m }, ab := s.ab ++ [] }, La, Qa', Ea',
      by simp only [Sys.stepA, End.step, hs], by simpa using hi, hm, rfl, rfl, ⟨hE, hA⟩, [], rfl, by simp, by simp⟩
  | poll take =>
    obtain ⟨r', e, d, m, Qa', Ea', hs, hi, hm, hE, _⟩ := h.llWrite hsum (p := ⟨[], 0, 0⟩) (Or.inl rfl) take
    obtain ⟨hE1, hE2⟩ := hE rfl
    refine ⟨{ s with a := { (s.a.upd r') with delivered := s.a.delivered ++ mark d m }, ab := s.ab ++ [] }, La, Qa', Ea',
      by simp only [Sys.stepA, End.step, hs], by simpa using hi, hm, rfl, rfl, ⟨hE1, hE2⟩, [], rfl, by simp, by simp⟩
  | timeout =>
    obtain ⟨r', e, Q', hs, hi, hk, hn, h1, h2, h3, _⟩ := timeout_inv h.ia
    exact ⟨_, La, Q', Ea, by simp only [Sys.stepA, End.step, hs]; rfl, h.quiet hi hk hn h1 h2 h3, hk.maxPkt, rfl, rfl,
      ⟨rfl, hquiet h2⟩, [], rfl, by simp, by simp⟩
  | connect wt =>
    simp only [Allowed] at ha
    have h' := h.ia
    rw [ha] at h'
    obtain ⟨r', e, hs, hi, hk, ht⟩ := connect_spec h' wt
    exact ⟨_, La, Qa, Ea, by simp only [Sys.stepA, End.step, hs],
      h.quiet hi hk rfl (by rw [ht]) (by rw [ht]) (by rw [ht]), hk.maxPkt, rfl, rfl, ⟨rfl, hquiet (by rw [ht])⟩, [], rfl,
      by simp, by simp⟩
  | disconnect wt =>
    simp only [Allowed] at ha
    have h' := h.ia
    rw [ha] at h'
    obtain ⟨r', e, Q', hs, hi, hk, hn, h1, h2, h3⟩ := disconnect_spec h' wt
    have hq := h.quiet hi hk hn h1 h2 h3
    rw [← ha] at hq
    exact ⟨_, La, Q', Ea, by simp only [Sys.stepA, End.step, hs]; rfl, hq, hk.maxPkt, rfl, rfl, ⟨rfl, hquiet h2⟩, [], rfl,
      by simp, by simp⟩

theorem sysInv_init (serverA : Bool) (sizeA maxA toA sizeB maxB toB : Nat) (ha : 1 ≤ maxA) (hb : 1 ≤ maxB)
    (ha2 : maxA ≤ 255) (hb2 : maxB ≤ 255) :
    SysInv (Sys.init serverA sizeA maxA toA sizeB maxB toB) [] [] [] [] 0 0 := by
  have hS : ∀ (sv : Bool) (size max to : Nat), SendP (End.init sv size max to) [] [] := fun sv size max to =>
    ⟨rfl, by simp [End.init, Rp.init], by simp [End.init], by simp, rfl, by simp⟩
  have hR : ∀ (sv : Bool) (size max to : Nat), RecvP (End.init sv size max to) [] 0 := by
    intro sv size max to
    refine ⟨by simp [End.init, Rp.init], by simp [End.init, Rp.init], by simp [End.init], by simp, ?_, ?_, trivial, rfl⟩
    · intro j p _ hp hr
      have := List.mem_of_getElem? hp
      simp only [End.init, Rp.init] at this
      rw [(List.mem_replicate.mp this).2] at hr
      simp at hr
    · simp only [End.init, Rp.init, List.take_nil, List.flatMap_nil, List.nil_append]
      cases hq : (List.replicate max (⟨[], 0, false, false⟩ : RPkt))[0]? with
      | none => rfl
      | some q =>
        have := List.mem_of_getElem? hq
        rw [(List.mem_replicate.mp this).2]
        rfl
  have hL : ∀ (sv sv' : Bool) (size max to size' max' to' : Nat),
      LinkP (End.init sv size max to) (End.init sv' size' max' to') [] [] := fun sv sv' size max to size' max' to' =>
    ⟨Nat.le_refl _, by simp [End.init, Rp.init], by simp⟩
  exact ⟨inv1_init _ _ _ _ ha ha2, inv1_init _ _ _ _ hb hb2, hS _ _ _ _, hS _ _ _ _, hR _ _ _ _, hR _ _ _ _,
    hL _ _ _ _ _ _ _ _, hL _ _ _ _ _ _ _ _⟩

theorem flatMap_mark_fst (L : List G) (f : G → Bool) :
    (L.flatMap (fun g => mark g.pl (f g))).map Prod.fst = L.flatMap G.pl := by
  induction L with
  | nil => rfl
  | cons g L ih => simp [List.flatMap_cons, ih, mark_ne]

/-- What the invariant says about the data: what the first end delivered is a beginning of what the other end accepted,
and messages end in it at least where they should. -/
theorem SysInv.data {s : Sys} {La Lb : List G} {Qa Qb : List XPkt} {Ea Eb : Nat} (h : SysInv s La Lb Qa Qb Ea Eb) :
    s.a.delivered.map Prod.fst <+: s.b.accepted.map Prod.fst := by
  rw [h.ra.dlv, h.sb.acc, flatMap_mark_fst, List.map_append, flatMap_mark_fst]
  conv => rhs; rw [← List.take_append_drop s.a.nDel Lb, List.flatMap_append]
  apply List.prefix_append_right_inj _ |>.mpr
  cases hp : s.a.r.rx.pkts[s.a.r.rx.pos]? with
  | none => exact ⟨_, rfl⟩
  | some p =>
    simp only [part]
    split
    · rename_i hr
      obtain ⟨h1, ⟨g, h2, h3, _⟩, _⟩ := h.ra.slots 0 p (Nat.lt_of_le_of_lt (Nat.zero_le _) h.ia.rx.pos) (by
        rw [Nat.add_zero, Nat.mod_eq_of_lt h.ia.rx.pos]; exact hp) hr
      rw [Nat.add_zero] at h2
      obtain ⟨hlt, h2⟩ := List.getElem?_eq_some_iff.mp h2
      rw [List.drop_eq_getElem_cons hlt, h2, List.flatMap_cons, h3, List.map_map]
      refine List.IsPrefix.trans ?_ (List.prefix_append _ _)
      have : (Prod.fst ∘ fun b : UInt8 => (b, false)) = id := rfl
      rw [this, List.map_id]
      exact List.take_prefix _ _
    · exact ⟨_, rfl⟩

/-- Marks of one list that must be found in another. -/
def MarksLe (acc del : List (UInt8 × Bool)) : Prop :=
  ∀ (i : Nat) (x : UInt8) (y : UInt8 × Bool), acc[i]? = some (x, true) → del[i]? = some y → y = (x, true)

theorem MarksLe.append {a d a' d' : List (UInt8 × Bool)} (h : MarksLe a d) (hl : a.length = d.length) (h' : MarksLe a' d') :
    MarksLe (a ++ a') (d ++ d') := by
  intro i x y hx hy
  by_cases c : i < a.length
  · rw [List.getElem?_append_left c] at hx
    rw [List.getElem?_append_left (by omega)] at hy
    exact h i x y hx hy
  · rw [List.getElem?_append_right (by omega)] at hx
    rw [List.getElem?_append_right (by omega), ← hl] at hy
    exact h' _ x y hx hy

theorem mark_length (l : List UInt8) (m : Bool) : (mark l m).length = l.length := by
  have := congrArg List.length (mark_ne (l := l) (m := m))
  simpa using this

theorem mark_marksLe (l : List UInt8) {a w : Bool} (h : a = true → w = true) : MarksLe (mark l a) (mark l w) := by
  cases a with
  | false =>
    intro i x y hx _
    rw [mark_false, List.getElem?_map] at hx
    cases hl : l[i]? <;> rw [hl] at hx <;> simp at hx
  | true =>
    rw [h rfl]
    intro i x y hx hy
    rw [hx] at hy
    exact (Option.some.inj hy).symm

theorem flatMap_marksLe (L : List G) (h : ∀ g ∈ L, g.a = true → g.w = true) :
    MarksLe (L.flatMap (fun g => mark g.pl g.a)) (L.flatMap (fun g => mark g.pl g.w)) ∧
    (L.flatMap (fun g => mark g.pl g.a)).length = (L.flatMap (fun g => mark g.pl g.w)).length := by
  induction L with
  | nil => exact ⟨by intro i x y hx; simp at hx, rfl⟩
  | cons g L ih =>
    obtain ⟨i1, i2⟩ := ih (fun g hg => h g (List.mem_cons_of_mem _ hg))
    simp only [List.flatMap_cons]
    refine ⟨(mark_marksLe g.pl (h g List.mem_cons_self)).append (by simp [mark_length]) i1, ?_⟩
    simp [mark_length, i2]

theorem SysInv.marks {s : Sys} {La Lb : List G} {Qa Qb : List XPkt} {Ea Eb : Nat} (h : SysInv s La Lb Qa Qb Ea Eb) :
    MarksLe s.b.accepted s.a.delivered := by
  rw [h.ra.dlv, h.sb.acc]
  have hne := h.sb.ne
  conv => arg 1; rw [← List.take_append_drop s.a.nDel Lb, List.flatMap_append]
  have h1 := flatMap_marksLe (Lb.take s.a.nDel) (fun g hg => (hne g (List.mem_of_mem_take hg)).2)
  refine h1.1.append h1.2 ?_
  cases hp : s.a.r.rx.pkts[s.a.r.rx.pos]? with
  | none => intro i x y _ hy; simp [part] at hy
  | some p =>
    simp only [part]
    split
    · rename_i hr
      obtain ⟨_, ⟨g, h2, h3, _⟩, h4, _⟩ := h.ra.slots 0 p (Nat.lt_of_le_of_lt (Nat.zero_le _) h.ia.rx.pos) (by
        rw [Nat.add_zero, Nat.mod_eq_of_lt h.ia.rx.pos]; exact hp) hr
      rw [Nat.add_zero] at h2
      obtain ⟨hlt, h2⟩ := List.getElem?_eq_some_iff.mp h2
      rw [List.drop_eq_getElem_cons hlt, h2, List.flatMap_cons, h3]
      intro i x y hx hy
      -- a part of a packet never contains its last byte
      have hi : i < p.start := by
        have := (List.getElem?_eq_some_iff.mp hy).1
        simp only [List.length_map, List.length_take] at this
        omega
      exfalso
      rw [List.getElem?_append_left (by rw [mark_length]; omega)] at hx
      conv at hx => lhs; arg 1; rw [← List.take_append_drop p.start p.data]
      rw [mark_append _ _ (by rw [Ne, List.drop_eq_nil_iff]; omega), List.getElem?_append_left (by simp; omega),
        List.getElem?_map] at hx
      cases hl : (p.data.take p.start)[i]? <;> rw [hl] at hx <;> simp at hx
    · intro i x y _ hy
      simp at hy

/-- The states of a system reachable from a new connection, over a network that may lose, duplicate and reorder packets,
but does not deliver packets that are too old. -/
inductive Reach (s0 : Sys) : Sys → Prop
  | refl : Reach s0 s0
  | step {s s' : Sys} (atA : Bool) (op : Op) : Reach s0 s →
      Allowed (if atA then s.a else s.b) (if atA then s.ba else s.ab) op → s.step atA op = some s' → Reach s0 s'

theorem step_inv {s : Sys} {La Lb : List G} {Qa Qb : List XPkt} {Ea Eb : Nat} (h : SysInv s La Lb Qa Qb Ea Eb)
    (hsum : s.a.r.maxPkt + s.b.r.maxPkt ≤ 256) (atA : Bool) (op : Op)
    (ha : Allowed (if atA then s.a else s.b) (if atA then s.ba else s.ab) op) :
    ∃ s' La' Lb' Qa' Qb' Ea' Eb', s.step atA op = some s' ∧ SysInv s' La' Lb' Qa' Qb' Ea' Eb' ∧
      s'.a.r.maxPkt = s.a.r.maxPkt ∧ s'.b.r.maxPkt = s.b.r.maxPkt := by
  cases atA with
  | true =>
    obtain ⟨s', La', Qa', Ea', hs, hi, hm, hb, _⟩ := h.stepA hsum op ha
    exact ⟨s', La', Lb, Qa', Qb, Ea', Eb, hs, hi, hm, by rw [hb]⟩
  | false =>
    obtain ⟨s', Lb', Qb', Eb', hs, hi, hm, hb, _⟩ := h.swap.stepA (by simp only [Sys.swap]; omega) op ha
    exact ⟨s'.swap, La, Lb', Qa, Qb', Ea, Eb', by simp only [Sys.step, hs]; rfl, hi.swap,
      by show s'.b.r.maxPkt = _; rw [hb]; rfl, hm⟩

theorem reach_inv {serverA : Bool} {sizeA maxA toA sizeB maxB toB : Nat} (ha : 1 ≤ maxA) (hb : 1 ≤ maxB)
    (hsum : maxA + maxB ≤ 256) {s : Sys} (hr : Reach (Sys.init serverA sizeA maxA toA sizeB maxB toB) s) :
    (∃ La Lb Qa Qb Ea Eb, SysInv s La Lb Qa Qb Ea Eb) ∧ s.a.r.maxPkt = maxA ∧ s.b.r.maxPkt = maxB := by
  induction hr with
  | refl => exact ⟨⟨_, _, _, _, _, _, sysInv_init _ _ _ _ _ _ _ ha hb (by omega) (by omega)⟩, rfl, rfl⟩
  | step atA op _ hal hs ih =>
    obtain ⟨⟨La, Lb, Qa, Qb, Ea, Eb, hi⟩, h1, h2⟩ := ih
    obtain ⟨s', La', Lb', Qa', Qb', Ea', Eb', hs', hi', m1, m2⟩ := step_inv hi (by omega) atA op hal
    rw [hs] at hs'
    cases hs'
    exact ⟨⟨_, _, _, _, _, _, hi'⟩, by omega, by omega⟩

/-- **C25, partial.**  Two ends of a connection whose windows add up to at most 256 packets, connected by a network that may lose,
duplicate and reorder packets (but not deliver packets so old that their sequence number became ambiguous): whatever the
users, the timers and the network do, what an end delivered is a beginning of what the other end accepted, and no
operation fails an assertion. -/
theorem C25_network_partial (serverA : Bool) (sizeA maxA toA sizeB maxB toB : Nat) (ha : 1 ≤ maxA) (hb : 1 ≤ maxB)
    (hsum : maxA + maxB ≤ 256) {s : Sys} (hr : Reach (Sys.init serverA sizeA maxA toA sizeB maxB toB) s) :
    s.b.delivered.map Prod.fst <+: s.a.accepted.map Prod.fst ∧ s.a.delivered.map Prod.fst <+: s.b.accepted.map Prod.fst ∧
    ∀ atA op, Allowed (if atA then s.a else s.b) (if atA then s.ba else s.ab) op → ∃ s', s.step atA op = some s' := by
  obtain ⟨⟨La, Lb, Qa, Qb, Ea, Eb, hi⟩, h1, h2⟩ := reach_inv ha hb hsum hr
  refine ⟨hi.swap.data, hi.data, ?_⟩
  intro atA op hal
  obtain ⟨s', _, _, _, _, _, _, hs, _⟩ := step_inv hi (by omega) atA op hal
  exact ⟨s', hs⟩

/-- **C26, partial.**  Where a message that was accepted ends, the delivered data has the end of message mark (a mark can
also be where no message ends, see `C26_violated`). -/
theorem C26_network_partial (serverA : Bool) (sizeA maxA toA sizeB maxB toB : Nat) (ha : 1 ≤ maxA) (hb : 1 ≤ maxB)
    (hsum : maxA + maxB ≤ 256) {s : Sys} (hr : Reach (Sys.init serverA sizeA maxA toA sizeB maxB toB) s) (i : Nat)
    (x : UInt8) (y : UInt8 × Bool) (hx : s.a.accepted[i]? = some (x, true)) (hy : s.b.delivered[i]? = some y) :
    y = (x, true) := by
  obtain ⟨⟨La, Lb, Qa, Qb, Ea, Eb, hi⟩, h1, h2⟩ := reach_inv ha hb hsum hr
  exact hi.swap.marks i x y hx hy

/-! ### A network that keeps the order -/

/-- What an end can do when the queue of packets on their way to it is `q`: it receives only the packet in front. -/
def AllowedQ (e : End) (q : List Pk) : Op → Prop
  | .recv p _ => q.head? = some p
  | .connect _ => e.opening = true
  | .disconnect _ => e.opening = false
  | _ => True

/-- A new connection over two queues (from the first to the second end, and back).  Received packets stay in front of
their queue, so a packet can be received any number of times (duplication), and the network can throw away any packets at
any time (`lose`). -/
inductive Fifo (s0 : Sys) : Sys → List Pk → List Pk → Prop
  | refl : Fifo s0 s0 [] []
  | stepA {s s' : Sys} {qab qba : List Pk} (op : Op) : Fifo s0 s qab qba → AllowedQ s.a qba op →
      s.step true op = some s' → Fifo s0 s' (qab ++ s'.ab.drop s.ab.length) qba
  | stepB {s s' : Sys} {qab qba : List Pk} (op : Op) : Fifo s0 s qab qba → AllowedQ s.b qab op →
      s.step false op = some s' → Fifo s0 s' qab (qba ++ s'.ba.drop s.ba.length)
  | lose {s : Sys} {qab qba qab' qba' : List Pk} : Fifo s0 s qab qba → List.Sublist qab' qab → List.Sublist qba' qba → Fifo s0 s qab' qba'

/-- The queue to `x` from `y`, where `x` expects packet `E` next. -/
structure QInv (x y : End) (yx q : List Pk) (E : Nat) : Prop where
  mem : ∀ p ∈ q, p ∈ yx ∧ E ≤ p.low + y.r.maxPkt ∧ x.nAck ≤ p.ack
  mono : q.Pairwise (fun p p' => p.low ≤ p'.low ∧ p.ack ≤ p'.ack)

theorem QInv.sub {x y : End} {yx q q' : List Pk} {E : Nat} (h : QInv x y yx q E) (hs : List.Sublist q' q) : QInv x y yx q' E :=
  ⟨fun p hp => h.mem p (hs.subset hp), h.mono.sublist hs⟩

theorem SysInv.boundA {s : Sys} {La Lb : List G} {Qa Qb : List XPkt} {Ea Eb : Nat} (h : SysInv s La Lb Qa Qb Ea Eb) :
    Ea ≤ s.b.nAck + s.b.r.maxPkt := by
  have h1 := h.ra.leL
  have h2 := h.sb.len
  have h3 := h.ib.tx.qmax
  have h4 := h.ib.tx.maxM
  omega

theorem SysInv.fifoA {s : Sys} {La Lb : List G} {Qa Qb : List XPkt} {Ea Eb : Nat} (h : SysInv s La Lb Qa Qb Ea Eb)
    (hsum : s.a.r.maxPkt + s.b.r.maxPkt ≤ 255) {qab qba : List Pk} (hqa : QInv s.a s.b s.ba qba Ea)
    (hqb : QInv s.b s.a s.ab qab Eb) (op : Op) (ha : AllowedQ s.a qba op) :
    ∃ s' La' Qa' Ea', s.stepA op = some s' ∧ SysInv s' La' Lb Qa' Qb Ea' Eb ∧ s'.a.r.maxPkt = s.a.r.maxPkt ∧
      s'.b = s.b ∧ QInv s'.a s'.b s'.ba qba Ea' ∧ QInv s'.b s'.a s'.ab (qab ++ s'.ab.drop s.ab.length) Eb := by
  have hal : Allowed s.a s.ba op := by
    cases op with
    | recv p take =>
      have hp : p ∈ qba := List.mem_of_head? ha
      obtain ⟨h1, h2, h3⟩ := hqa.mem p hp
      refine ⟨h1, ?_, ?_⟩
      · have := h.ra.le
        omega
      · have := h.ia.tx.maxM
        omega
    | write sg eom ll => trivial
    | poll t => trivial
    | timeout => trivial
    | connect w => exact ha
    | disconnect w => exact ha
  obtain ⟨s', La', Qa', Ea', hs, hi, hm, hb, hba, hmv, ps, hps, hlen, hpl⟩ := h.stepA (by omega) op hal
  refine ⟨s', La', Qa', Ea', hs, hi, hm, hb, ?_, ?_⟩
  · rw [hb, hba]
    refine ⟨fun p hp => ?_, hqa.mono⟩
    obtain ⟨h1, h2, h3⟩ := hqa.mem p hp
    refine ⟨h1, ?_⟩
    cases op with
    | recv p0 take =>
      obtain ⟨m1, m2⟩ := hmv
      obtain ⟨tl, rfl⟩ : ∃ tl, qba = p0 :: tl := by
        cases qba with
        | nil => simp [AllowedQ] at ha
        | cons x xs =>
          simp only [AllowedQ, List.head?_cons, Option.some.injEq] at ha
          exact ⟨xs, by rw [ha]⟩
      have hle : p0.low ≤ p.low ∧ p0.ack ≤ p.ack := by
        rcases List.mem_cons.mp hp with rfl | hp
        · omega
        · exact (List.pairwise_cons.mp hqa.mono).1 p hp
      omega
    | write sg eom ll => obtain ⟨m1, m2⟩ := hmv; omega
    | poll t => obtain ⟨m1, m2⟩ := hmv; omega
    | timeout => obtain ⟨m1, m2⟩ := hmv; omega
    | connect w => obtain ⟨m1, m2⟩ := hmv; omega
    | disconnect w => obtain ⟨m1, m2⟩ := hmv; omega
  · have hd : s'.ab.drop s.ab.length = ps := by rw [hps, List.drop_left]
    rw [hd]
    refine ⟨fun p hp => ?_, ?_⟩
    · rcases List.mem_append.mp hp with hp | hp
      · obtain ⟨h1, h2, h3⟩ := hqb.mem p hp
        rw [hps, hb, hm]
        exact ⟨List.mem_append_left _ h1, h2, h3⟩
      · obtain ⟨e1, e2⟩ := hpl p hp
        have h1 := hi.swap.boundA
        have h2 := hi.lba.ack
        simp only [Sys.swap] at h1
        rw [hps]
        exact ⟨List.mem_append_right _ hp, by omega, by omega⟩
    · rw [List.pairwise_append]
      refine ⟨hqb.mono, ?_, ?_⟩
      · match ps, hlen with
        | [], _ => exact List.Pairwise.nil
        | [p], _ => exact List.pairwise_singleton _ _
      · intro p hp p' hp'
        obtain ⟨e1, e2⟩ := hpl p' hp'
        have := hi.lab.net p (by rw [hps]; exact List.mem_append_left _ (hqb.mem p hp).1)
        omega

theorem fifo_inv {serverA : Bool} {sizeA maxA toA sizeB maxB toB : Nat} (ha : 1 ≤ maxA) (hb : 1 ≤ maxB)
    (hsum : maxA + maxB ≤ 255) {s : Sys} {qab qba : List Pk}
    (hr : Fifo (Sys.init serverA sizeA maxA toA sizeB maxB toB) s qab qba) :
    (∃ La Lb Qa Qb Ea Eb, SysInv s La Lb Qa Qb Ea Eb ∧ QInv s.a s.b s.ba qba Ea ∧ QInv s.b s.a s.ab qab Eb) ∧
    s.a.r.maxPkt = maxA ∧ s.b.r.maxPkt = maxB := by
  induction hr with
  | refl =>
    exact ⟨⟨_, _, _, _, _, _, sysInv_init _ _ _ _ _ _ _ ha hb (by omega) (by omega), ⟨by simp, List.Pairwise.nil⟩,
      ⟨by simp, List.Pairwise.nil⟩⟩, rfl, rfl⟩
  | stepA op _ hal hs ih =>
    obtain ⟨⟨La, Lb, Qa, Qb, Ea, Eb, hi, q1, q2⟩, h1, h2⟩ := ih
    obtain ⟨s', La', Qa', Ea', hs', hi', hm, hb', q1', q2'⟩ := hi.fifoA (by omega) q1 q2 op hal
    rw [Sys.step, if_pos rfl, hs'] at hs
    cases hs
    exact ⟨⟨_, _, _, _, _, _, hi', q1', q2'⟩, by omega, by rw [hb']; exact h2⟩
  | stepB op _ hal hs ih =>
    obtain ⟨⟨La, Lb, Qa, Qb, Ea, Eb, hi, q1, q2⟩, h1, h2⟩ := ih
    obtain ⟨s', La', Qa', Ea', hs', hi', hm, hb', q1', q2'⟩ :=
      hi.swap.fifoA (by simp only [Sys.swap]; omega) (qab := _) (qba := _) q2 q1 op hal
    rw [Sys.step, if_neg (by simp), hs'] at hs
    cases hs
    exact ⟨⟨_, _, _, _, _, _, hi'.swap, q2', q1'⟩, by simp only [Sys.swap, hb']; exact h1,
      by simp only [Sys.swap, hm]; exact h2⟩
  | lose _ l1 l2 ih =>
    obtain ⟨⟨La, Lb, Qa, Qb, Ea, Eb, hi, q1, q2⟩, h1, h2⟩ := ih
    exact ⟨⟨_, _, _, _, _, _, hi, q1.sub l2, q2.sub l1⟩, h1, h2⟩

/-- **C25, partial**, over a network that loses and duplicates packets but keeps their order, without any assumption on how old
packets may be.  The windows may add up to 255 packets (the limit is real, see `C25_window256_violated`). -/
theorem C25_fifo_partial (serverA : Bool) (sizeA maxA toA sizeB maxB toB : Nat) (ha : 1 ≤ maxA) (hb : 1 ≤ maxB)
    (hsum : maxA + maxB ≤ 255) {s : Sys} {qab qba : List Pk}
    (hr : Fifo (Sys.init serverA sizeA maxA toA sizeB maxB toB) s qab qba) :
    s.b.delivered.map Prod.fst <+: s.a.accepted.map Prod.fst ∧ s.a.delivered.map Prod.fst <+: s.b.accepted.map Prod.fst ∧
    (∀ op, AllowedQ s.a qba op → ∃ s', s.step true op = some s') ∧
    (∀ op, AllowedQ s.b qab op → ∃ s', s.step false op = some s') := by
  obtain ⟨⟨La, Lb, Qa, Qb, Ea, Eb, hi, q1, q2⟩, h1, h2⟩ := fifo_inv ha hb hsum hr
  refine ⟨hi.swap.data, hi.data, fun op hal => ?_, fun op hal => ?_⟩
  · obtain ⟨s', _, _, _, hs, _⟩ := hi.fifoA (by omega) q1 q2 op hal
    exact ⟨s', hs⟩
  · obtain ⟨s', _, _, _, hs, _⟩ := hi.swap.fifoA (by simp only [Sys.swap]; omega) q2 q1 op hal
    exact ⟨s'.swap, by simp only [Sys.step, hs]; rfl⟩

/-- **C26, partial**, over the same network. -/
theorem C26_fifo_partial (serverA : Bool) (sizeA maxA toA sizeB maxB toB : Nat) (ha : 1 ≤ maxA) (hb : 1 ≤ maxB)
    (hsum : maxA + maxB ≤ 255) {s : Sys} {qab qba : List Pk}
    (hr : Fifo (Sys.init serverA sizeA maxA toA sizeB maxB toB) s qab qba) (i : Nat) (x : UInt8) (y : UInt8 × Bool)
    (hx : s.a.accepted[i]? = some (x, true)) (hy : s.b.delivered[i]? = some y) : y = (x, true) := by
  obtain ⟨⟨La, Lb, Qa, Qb, Ea, Eb, hi, q1, q2⟩, h1, h2⟩ := fifo_inv ha hb hsum hr
  exact hi.swap.marks i x y hx hy

/-! ### Runs -/

/-- A step of a run over queues. -/
inductive Cmd
  | opA (op : Op) | opB (op : Op) | recvA (take : Nat) | recvB (take : Nat) | dropA | dropB
deriving Repr

/-- The parts of `AllowedQ` for operations other than receiving. -/
def okOp (e : End) : Op → Bool
  | .recv _ _ => false
  | .connect _ => e.opening
  | .disconnect _ => !e.opening
  | _ => true

/-- A step of a run: the system and the queues to the second and to the first end. -/
def cmd (x : Sys × List Pk × List Pk) : Cmd → Option (Sys × List Pk × List Pk)
  | .opA op =>
    if okOp x.1.a op then
      match x.1.step true op with
      | none => none
      | some s' => some (s', x.2.1 ++ s'.ab.drop x.1.ab.length, x.2.2)
    else none
  | .opB op =>
    if okOp x.1.b op then
      match x.1.step false op with
      | none => none
      | some s' => some (s', x.2.1, x.2.2 ++ s'.ba.drop x.1.ba.length)
    else none
  | .recvA take =>
    match x.2.2 with
    | [] => none
    | p :: _ =>
      match x.1.step true (.recv p (some take)) with
      | none => none
      | some s' => some (s', x.2.1 ++ s'.ab.drop x.1.ab.length, x.2.2)
  | .recvB take =>
    match x.2.1 with
    | [] => none
    | p :: _ =>
      match x.1.step false (.recv p (some take)) with
      | none => none
      | some s' => some (s', x.2.1, x.2.2 ++ s'.ba.drop x.1.ba.length)
  | .dropA => some (x.1, x.2.1, x.2.2.tail)
  | .dropB => some (x.1, x.2.1.tail, x.2.2)

def run (x : Sys × List Pk × List Pk) : List Cmd → Option (Sys × List Pk × List Pk)
  | [] => some x
  | c :: cs =>
    match cmd x c with
    | none => none
    | some x => run x cs

theorem okOp_allowed {e : End} {q : List Pk} {op : Op} (h : okOp e op = true) : AllowedQ e q op := by
  cases op <;> simp_all [okOp, AllowedQ]

theorem cmd_fifo {s0 : Sys} {x y : Sys × List Pk × List Pk} {c : Cmd} (h : Fifo s0 x.1 x.2.1 x.2.2) (hc : cmd x c = some y) :
    Fifo s0 y.1 y.2.1 y.2.2 := by
  obtain ⟨s, qab, qba⟩ := x
  cases c with
  | opA op =>
    simp only [cmd] at hc
    split at hc
    · split at hc
      · simp at hc
      · rename_i hok _ s' hs
        cases hc
        exact .stepA op h (okOp_allowed hok) hs
    · simp at hc
  | opB op =>
    simp only [cmd] at hc
    split at hc
    · split at hc
      · simp at hc
      · rename_i hok _ s' hs
        cases hc
        exact .stepB op h (okOp_allowed hok) hs
    · simp at hc
  | recvA take =>
    simp only [cmd] at hc
    split at hc
    · simp at hc
    · rename_i p q
      split at hc
      · simp at hc
      · rename_i s' hs
        cases hc
        exact .stepA (.recv p (some take)) h (List.head?_cons) hs
  | recvB take =>
    simp only [cmd] at hc
    split at hc
    · simp at hc
    · rename_i p q
      split at hc
      · simp at hc
      · rename_i s' hs
        cases hc
        exact .stepB (.recv p (some take)) h (List.head?_cons) hs
  | dropA => cases hc; exact .lose h (List.Sublist.refl _) (List.tail_sublist _)
  | dropB => cases hc; exact .lose h (List.tail_sublist _) (List.Sublist.refl _)

theorem run_fifo {s0 : Sys} {x y : Sys × List Pk × List Pk} {cs : List Cmd} (h : Fifo s0 x.1 x.2.1 x.2.2)
    (hc : run x cs = some y) : Fifo s0 y.1 y.2.1 y.2.2 := by
  induction cs generalizing x with
  | nil => cases hc; exact h
  | cons c cs ih =>
    simp only [run] at hc
    split at hc
    · simp at hc
    · rename_i x' hx
      exact ih (cmd_fifo h hx) hc

/-- Opening a connection. -/
def opening : List Cmd :=
  [.opA (.connect false), .opB (.connect false), .opA (.write [] false .take), .recvB 100, .dropB,
   .opB (.connect false), .opB (.write [] false .take), .recvA 100, .dropA, .opA (.connect false)]

/-- The data accepted at the first end and delivered at the second one in a run. -/
def outcome (sizeA maxA sizeB maxB : Nat) (cs : List Cmd) : Option (List (UInt8 × Bool) × List (UInt8 × Bool)) :=
  match run (Sys.init false sizeA maxA 5 sizeB maxB 5, [], []) cs with
  | none => none
  | some y => some (y.1.a.accepted, y.1.b.delivered)

theorem outcome_fifo {sizeA maxA sizeB maxB : Nat} {cs : List Cmd} {u v : List (UInt8 × Bool)}
    (h : outcome sizeA maxA sizeB maxB cs = some (u, v)) :
    ∃ s qab qba, Fifo (Sys.init false sizeA maxA 5 sizeB maxB 5) s qab qba ∧ s.a.accepted = u ∧ s.b.delivered = v := by
  unfold outcome at h
  split at h
  · simp at h
  · rename_i y hy
    cases h
    exact ⟨y.1, y.2.1, y.2.2, run_fifo (x := (_, [], [])) .refl hy, rfl, rfl⟩

/-- An exchange with losses and a duplicate: the second packet is lost at first and delivered after the third one. -/
example : outcome 3 4 3 4 (opening ++ [.opA (.write [[1, 2, 3, 4]] true .take), .recvB 2, .recvB 9, .recvB 9, .dropB,
      .opA (.write [[4]] true .take), .dropB, .opA (.write [[5], [6]] false .take), .recvB 9, .dropB,
      .opB (.write [] false .take), .recvA 0, .dropA, .opA (.write [] false .take), .recvB 9, .opB (.poll (some 9))]) =
    some ([(1, false), (2, false), (3, false), (4, true), (5, false), (6, false)],
          [(1, false), (2, false), (3, false), (4, true), (5, false), (6, false)]) := by decide +kernel

/-- **C25 fails** with windows that add up to 256 packets (`pos > max_pkt` at :947-948 lets a packet behind the window
pass): here the sender has a window of one packet and the receiver one of 255 packets, and the network duplicates the only
packet.  The receiver delivers it twice. -/
theorem C25_window256_violated : ∃ s qab qba, Fifo (Sys.init false 10 1 5 10 255 5) s qab qba ∧
    ¬ s.b.delivered.map Prod.fst <+: s.a.accepted.map Prod.fst := by
  obtain ⟨s, qab, qba, h, h1, h2⟩ := outcome_fifo (sizeA := 10) (maxA := 1) (sizeB := 10) (maxB := 255)
    (cs := opening ++ [.opA (.write [[7]] true .take), .recvB 9, .recvB 9]) (u := [(7, true)]) (v := [(7, true), (7, true)])
    (by decide +kernel)
  exact ⟨s, qab, qba, h, by rw [h1, h2]; decide⟩

/-- The same with two windows of 255 packets. -/
theorem C25_window255_violated : ∃ s qab qba, Fifo (Sys.init false 10 255 5 10 255 5) s qab qba ∧
    ¬ s.b.delivered.map Prod.fst <+: s.a.accepted.map Prod.fst := by
  obtain ⟨s, qab, qba, h, h1, h2⟩ := outcome_fifo (sizeA := 10) (maxA := 255) (sizeB := 10) (maxB := 255)
    (cs := opening ++ [.opA (.write [[7]] true .take), .recvB 9, .recvB 9]) (u := [(7, true)]) (v := [(7, true), (7, true)])
    (by decide +kernel)
  exact ⟨s, qab, qba, h, by rw [h1, h2]; decide⟩

/-- **C26 fails**: the end of message mark of a transmit slot is never cleared (:729-733), so a packet in a slot that once
ended a message is delivered with a mark although it does not end one. -/
theorem C26_stale_violated : ∃ s qab qba, Fifo (Sys.init false 10 1 5 10 1 5) s qab qba ∧
    ∃ (i : Nat) (x : UInt8), s.a.accepted[i]? = some (x, false) ∧ s.b.delivered[i]? = some (x, true) := by
  obtain ⟨s, qab, qba, h, h1, h2⟩ := outcome_fifo (sizeA := 10) (maxA := 1) (sizeB := 10) (maxB := 1)
    (cs := opening ++ [.opA (.write [[7]] true .take), .recvB 9, .dropB, .opB (.write [] false .take), .recvA 9, .dropA,
      .opA (.write [[8]] false .take), .recvB 9]) (u := [(7, true), (8, false)]) (v := [(7, true), (8, true)])
    (by decide +kernel)
  exact ⟨s, qab, qba, h, 1, 8, by rw [h1]; rfl, by rw [h2]; rfl⟩

/-- **C26 fails**: a write whose first buffers fill a packet exactly is not counted as truncated (:711-725), so the packet
has the end of message mark although more buffers follow. -/
theorem C26_exact_violated : ∃ s qab qba, Fifo (Sys.init false 2 4 5 2 4 5) s qab qba ∧
    ∃ (i : Nat) (x : UInt8), s.a.accepted[i]? = some (x, false) ∧ s.b.delivered[i]? = some (x, true) := by
  obtain ⟨s, qab, qba, h, h1, h2⟩ := outcome_fifo (sizeA := 2) (maxA := 4) (sizeB := 2) (maxB := 4)
    (cs := opening ++ [.opA (.write [[7, 8], [9]] true .take), .recvB 9]) (u := [(7, false), (8, false)])
    (v := [(7, false), (8, true)]) (by decide +kernel)
  exact ⟨s, qab, qba, h, 1, 8, by rw [h1]; rfl, by rw [h2]; rfl⟩

/-! ### Hostile packets -/

/-- The operations allowed when received bytes may be anything. -/
def AllowedAny (e : End) : Op → Bool
  | .connect _ => e.opening
  | .disconnect _ => !e.opening
  | _ => true

/-- A run of one end. -/
def run1 (e : End) : List Op → Option End
  | [] => some e
  | op :: ops =>
    if AllowedAny e op then
      match e.step op with
      | none => none
      | some (e, _) => run1 e ops
    else none

/-- **C27 fails**: a resend request for a range that runs backwards (both ends of the range are in the window) makes
`resend_packets` (:364-378) walk over slots that hold no packets and count them as waiting, and `relpkt_ul_write` runs into
the assertion of `first_xmitpkt_to_send`. -/
theorem C27_violated : ∃ (ops : List Op) (e : End), run1 (End.init false 10 4 5) ops = some e ∧
    ∃ op, AllowedAny e op = true ∧ e.step op = none := by
  have h : ((run1 (End.init false 10 4 5)
      [.connect false, .write [] false .take, .recv ⟨[0x11, 0, 4, 0, 10], 0, 0⟩ none, .connect false,
       .write [[1]] false .take, .write [[2]] false .take, .write [[3]] false .take, .write [[4]] false .take,
       .recv ⟨[0x20, 2, 0], 0, 0⟩ none, .recv ⟨[0x30, 3, 2], 0, 0⟩ none, .write [[5]] false .take,
       .recv ⟨[0x30, 4, 2], 0, 0⟩ none, .write [] false .take, .write [] false .take, .write [] false .take]).map
      (fun e => e.step (.write [] false .take))) = some none := by decide +kernel
  simp only [Option.map_eq_some_iff] at h
  obtain ⟨e, h1, h2⟩ := h
  exact ⟨_, e, h1, _, rfl, h2⟩

/-! ### Acknowledgements and protocol errors -/

/-- **C66, partial.**  In every reachable state with at most 254 packets outstanding, an acknowledgement is taken exactly if it is
for packets that are outstanding, and then just these are dropped from the queue. -/
theorem C66_partial (server : Bool) (size max to : Nat) (h1 : 1 ≤ max) (h2 : max ≤ 255) {e : End}
    (hr : Reach1 (End.init server size max to) e) (seq : Nat) (hs : seq < 256)
    (hn : (e.r.tx.send + 256 - e.r.tx.acked) % 256 ≤ 254) :
    if (seq + 256 - e.r.tx.acked) % 256 ≤ (e.r.tx.send + 256 - e.r.tx.acked) % 256 then
      ∃ t, e.r.tx.handleAck seq = some (some t) ∧ t.acked = seq ∧ t.send = e.r.tx.send ∧
        ∀ j, seq + j < seq + (t.send + 256 - seq) % 256 →
          t.pkts[(t.first + j) % t.max]? =
            e.r.tx.pkts[(e.r.tx.first + ((seq + 256 - e.r.tx.acked) % 256 + j)) % e.r.tx.max]?
    else e.r.tx.handleAck seq = some none := by
  obtain ⟨Q, hq⟩ := reach1_inv h1 h2 hr
  have hl : Q.length = (e.r.tx.send + 256 - e.r.tx.acked) % 256 := by
    have := hq.tx.snd
    have := hq.tx.ack
    have := hq.tx.qmax
    have := hq.tx.maxM
    have := hq.tx.m255
    omega
  have hh := hq.tx.handleAck hs
  rw [← hl]
  have e0 : (seq + 256 - e.r.tx.acked) % 256 = sub8 seq e.r.tx.acked := rfl
  rw [e0]
  by_cases c : sub8 seq e.r.tx.acked ≤ Q.length
  · rw [if_pos c]
    rw [if_pos ⟨c, by omega⟩] at hh
    obtain ⟨t, e1, e2, e3, _, e5, e6⟩ := hh
    refine ⟨t, e1, e6, e5, ?_⟩
    intro j hj
    have h3 := e2.snd
    have h4 := hq.tx.m255
    have h5 := hq.tx.qmax
    have h6 := hq.tx.maxM
    rw [List.length_drop] at h3
    have hj' : j < (Q.drop (sub8 seq e.r.tx.acked)).length := by
      rw [List.length_drop]
      omega
    rw [e2.slots j hj', hq.tx.slots _ (by rw [List.length_drop] at hj'; omega), List.getElem_drop]
  · rw [if_neg c]
    rw [if_neg (by omega)] at hh
    exact hh

/-- **C66, partial.**  A data packet whose acknowledgement is not for outstanding packets is dropped as a whole: it changes
nothing, its data is not taken and nothing is delivered. -/
theorem C66_refused_partial (server : Bool) (size max to : Nat) (h1 : 1 ≤ max) (h2 : max ≤ 255) {e : End}
    (hr : Reach1 (End.init server size max to) e) (b0 b1 b2 : UInt8) (payload : List UInt8) (take : Option Nat)
    (herr : e.r.err = .ok) (hst : e.r.state = .opened ∨ e.r.state = .closeClear) (ht : b0.toNat / 16 = 2)
    (hlen : payload.length ≤ e.r.maxSize)
    (hack : (e.r.tx.send + 256 - e.r.tx.acked) % 256 < (b1.toNat + 256 - e.r.tx.acked) % 256) :
    e.r.llWrite (b0 :: b1 :: b2 :: payload) take = some (e.r, .ok, [], false) := by
  have hn : (e.r.tx.send + 256 - e.r.tx.acked) % 256 ≤ 254 := by omega
  have h := C66_partial server size max to h1 h2 hr b1.toNat b1.toNat_lt hn
  rw [if_neg (by omega)] at h
  unfold Rp.llWrite
  rw [if_neg (by simp [herr]), if_neg (by simp), if_neg (by simp)]
  unfold Rp.process
  simp only [List.headD_cons, ht, Rp.onData, if_pos hst, Rp.onDataOpen, if_neg (Nat.not_lt.mpr hlen), h]

/-- Three packets outstanding from number 1 on: the acknowledgement 3 drops two of them, 1 is a repeated one, 5 is refused. -/
example : ((run1 (End.init false 10 4 5)
      [.connect false, .write [] false .take, .recv ⟨[0x11, 0, 4, 0, 10], 0, 0⟩ none, .connect false,
       .write [[1]] false .take, .recv ⟨[0x20, 1, 0], 0, 0⟩ none, .write [[2]] false .take, .write [[3]] false .take,
       .write [[4]] false .take]).map (fun e => ([3, 1, 5] : List Nat).map (fun n => (e.r.tx.handleAck n).map (fun t => t.map (fun t =>
        (t.acked, t.first)))))) = some [some (some (3, 3)), some (some (1, 1)), some none] := by decide +kernel

theorem reach1_run {e0 : End} {ops : List Op} {e e' : End} (h : Reach1 e0 e) (hr : run1 e ops = some e')
    (hg : ∀ op ∈ ops, ∀ p t, op = .recv p t → (p.bytes.headD 0).toNat / 16 ≠ 3) : Reach1 e0 e' := by
  induction ops generalizing e with
  | nil => cases hr; exact h
  | cons op ops ih =>
    simp only [run1] at hr
    split at hr
    · split at hr
      · simp at hr
      · rename_i hal _ e1 ps hs
        refine ih (.step op h ?_ hs) hr (fun op hop => hg op (List.mem_cons_of_mem _ hop))
        cases op with
        | recv p t => exact fun c => absurd c (hg _ List.mem_cons_self p t rfl)
        | write sg eom ll => trivial
        | poll t => trivial
        | timeout => trivial
        | connect w => simpa [AllowedAny, Allowed1] using hal
        | disconnect w => simpa [AllowedAny, Allowed1] using hal
    · simp at hr

theorem reach1_queue (k : Nat) (hk : k ≤ 255) : ∃ e, Reach1 (End.init false 10 255 5) e ∧ e.r.tx.acked = 0 ∧
    e.r.tx.send = k ∧ e.r.tx.max = 255 ∧ e.r.tx.maxSize = 10 ∧ e.r.maxSize = 10 := by
  induction k with
  | zero =>
    have h : (run1 (End.init false 10 255 5)
        [.connect false, .write [] false .take, .recv ⟨[0x11, 0, 255, 0, 10], 0, 0⟩ none, .connect false]).map
        (fun e => decide (e.r.tx.acked = 0 ∧ e.r.tx.send = 0 ∧ e.r.tx.max = 255 ∧ e.r.tx.maxSize = 10 ∧ e.r.maxSize = 10)) =
        some true := by decide +kernel
    simp only [Option.map_eq_some_iff, decide_eq_true_eq] at h
    obtain ⟨e, h1, h2⟩ := h
    refine ⟨e, reach1_run .refl h1 ?_, h2⟩
    intro op hop p t he
    subst he
    simp only [List.mem_cons, List.not_mem_nil, or_false, reduceCtorEq, false_or, Op.recv.injEq] at hop
    rw [hop.1]
    decide
  | succ k ih =>
    obtain ⟨e, hr, h1, h2, h3, h4, h5⟩ := ih (by omega)
    obtain ⟨Q, hq⟩ := reach1_inv (by omega) (by omega) hr
    obtain ⟨e', ps, Q', hs, _⟩ := step_inv1 hq (.write [[0]] false .refuse) trivial
    refine ⟨e', .step (.write [[0]] false .refuse) hr trivial hs, ?_⟩
    rcases hq.tx.put' hq.size [[0]] false with ⟨_, c⟩ | ⟨t, p, hput, h0, hQ, e1, e2, e3, e4, _⟩
    · exfalso
      rcases c with c | c | c
      · simp at c
      · unfold Tx.nrQueued at c
        rw [if_pos (by omega)] at c
        omega
      · rw [h4] at c
        simp at c
    · obtain ⟨r', er, out, Q2, hp, hQ', hn, k1, k2, k3, k4, k5, k6, k7, k8, _⟩ :=
        TxQ.push (r := { e.r with tx := t }) (M := e.r.maxPkt) hQ .refuse
      simp only at k1 k2 k3 k4 k5 k6 k7 k8
      simp only [End.step, Rp.ulWrite, hput, hp, Option.some.injEq, Prod.mk.injEq] at hs
      obtain ⟨rfl, _⟩ := hs
      simp only [End.upd]
      unfold u8 at e4
      omega

/-- **C66 fails** with 255 packets outstanding: every acknowledgement is refused for ever, because the range of
acceptable numbers looks empty (:446 with :341-350).  Such a state is reachable with a window of 255 packets. -/
theorem C66_violated :
    (∀ (t : Tx), t.acked < 256 → t.send = (t.acked + 255) % 256 → ∀ seq, seq < 256 → t.handleAck seq = some none) ∧
    ∃ e, Reach1 (End.init false 10 255 5) e ∧ e.r.tx.acked < 256 ∧ e.r.tx.send = (e.r.tx.acked + 255) % 256 := by
  constructor
  · intro t h1 h2 seq h3
    unfold Tx.handleAck
    rw [if_neg]
    rw [h2, seqInside_iff h3 h1 (by unfold u8; omega)]
    unfold sub8 u8
    omega
  · obtain ⟨e, hr, h1, h2, _⟩ := reach1_queue 255 (by omega)
    exact ⟨e, hr, by omega, by omega⟩

/-- **C67 fails**: two correct ends over a network that only loses one packet, and one of them reports a protocol error
(which closes the connection).  The receiver asks for a lost packet; before the request goes out the packet comes by a
retransmission after a timeout; the acknowledgement goes out with data before the request, and the request is then for a
packet that the sender no longer has (:990-1000). -/
theorem C67_violated : ∃ s qab p qba, Fifo (Sys.init false 10 4 5 10 4 5) s qab (p :: qba) ∧
    (s.a.r.llWrite p.bytes (some 9)).map (fun x => x.2.1) = some .protoErr := by
  have h : ((run (Sys.init false 10 4 5 10 4 5, [], []) (opening ++
      [.opA (.write [[1]] true .take), .recvB 9, .dropB, .opA (.write [[2]] true .take), .dropB,
       .opA (.write [[3]] true .take), .recvB 9, .dropB, .opA .timeout, .opA .timeout,
       .opA (.write [] false .take), .recvB 9, .dropB, .opA (.write [] false .take), .recvB 9, .dropB,
       .opB (.poll (some 9)), .opB (.write [[9]] true .take), .opB (.write [] false .take), .recvA 9, .dropA])).map
      (fun y => y.2.2.head?.map (fun p => (y.1.a.r.llWrite p.bytes (some 9)).map (fun x => x.2.1)))) =
        some (some (some .protoErr)) := by decide +kernel
  simp only [Option.map_eq_some_iff] at h
  obtain ⟨y, hy, p, hp, x, hx, hx2⟩ := h
  have hf := run_fifo (x := (_, [], [])) .refl hy
  obtain ⟨s, qab, qba⟩ := y
  cases qba with
  | nil => simp at hp
  | cons p' q =>
    cases hp
    exact ⟨s, qab, p, q, hf, by rw [hx]; simpa using hx2⟩

/-- **C67, partial.**  A received packet is answered with a protocol error only if it is shorter than three bytes, of an
unknown type, an init packet that is too short or asks for an empty window, a data packet with more data than was agreed,
or a resend request.  (The acknowledgements, data, init and close packets of a correct peer are none of these; its resend
requests can be, see `C67_violated`.) -/
theorem C67_partial (r : Rp) (buf : List UInt8) (take : Option Nat) (x : Rp × Err × List UInt8 × Bool) (hok : r.err = .ok)
    (h : r.llWrite buf take = some x) (hx : x.2.1 = .protoErr) :
    (buf ≠ [] ∧ buf.length < 3) ∨ (∃ b bs, buf = b :: bs ∧
      (b.toNat < 0x10 ∨ 0x50 ≤ b.toNat ∨
       (0x10 ≤ b.toNat ∧ b.toNat < 0x20 ∧ (buf.length < 5 ∨ buf[2]? = some 0)) ∨
       (0x20 ≤ b.toNat ∧ b.toNat < 0x30 ∧ buf.length > r.maxSize + 3) ∨
       (0x30 ≤ b.toNat ∧ b.toNat < 0x40))) := by
  have hdel : ∀ (r : Rp) x, r.deliver take = some x → x.2.1 ≠ .protoErr := by
    intro r x h
    unfold Rp.deliver at h
    split at h
    · simp at h
    · split at h
      · cases h; simp
      · split at h
        · cases h; simp
        · split at h
          · split at h
            · simp at h
            · cases h; simp
          · cases h; simp
  unfold Rp.llWrite at h
  rw [if_neg (by simp [hok])] at h
  split at h
  · exact absurd hx (hdel _ _ h)
  · rename_i hne
    split at h
    · exact Or.inl ⟨hne, by assumption⟩
    · rename_i hlen
      right
      match buf, hne with
      | b :: bs, _ =>
      refine ⟨b, bs, rfl, ?_⟩
      split at h
      · simp at h
      · exact absurd hx (hdel _ _ h)
      · cases h; simp at hx
      · rename_i r' hpr
        unfold Rp.process at hpr
        simp only [List.headD_cons] at hpr
        have hb := b.toNat_lt
        split at hpr
        · rename_i ht
          right; right; left
          refine ⟨by omega, by omega, ?_⟩
          by_cases c : (b :: bs).length < 5
          · exact Or.inl c
          · right
            match bs, c, hpr with
            | [], c, _ | [_], c, _ | [_, _], c, _ | [_, _, _], c, _ => simp at c
            | b1 :: b2 :: b3 :: b4 :: tl, _, hpr =>
              unfold Rp.onInit at hpr
              simp only at hpr
              split at hpr
              all_goals try (simp at hpr; done)
              · split at hpr
                · split at hpr
                  · simp; assumption
                  · simp at hpr
                · simp at hpr
              · split at hpr <;> simp at hpr
              · split at hpr
                · split at hpr <;> simp at hpr
                · simp at hpr
              · split at hpr
                · split at hpr <;> simp at hpr
                · simp at hpr
        · rename_i ht
          right; right; right; left
          refine ⟨by omega, by omega, ?_⟩
          match bs, hlen with
          | b1 :: b2 :: tl, _ =>
            unfold Rp.onData at hpr
            simp only at hpr
            split at hpr
            · unfold Rp.onDataOpen at hpr
              split at hpr
              · simp only [List.length_cons]; omega
              · split at hpr
                · simp at hpr
                · simp at hpr
                · simp only at hpr
                  split at hpr
                  · split at hpr <;> simp at hpr
                  · split at hpr
                    · simp at hpr
                    · split at hpr <;> simp at hpr
            · simp at hpr
        · rename_i ht
          right; right; right; right
          omega
        · split at hpr <;> simp at hpr
        · rename_i t1 t2 t3 t4
          have e : b.toNat / 16 ≠ 1 := t1
          have e : b.toNat / 16 ≠ 2 := t2
          have e : b.toNat / 16 ≠ 3 := t3
          have e : b.toNat / 16 ≠ 4 := t4
          omega

/-- A data packet with too much data, and an acknowledgement. -/
example : ∃ r : Rp, r.state = .opened ∧ (r.llWrite [0x20, 0, 0, 1, 2, 3] none).map (fun x => x.2.1) = some .protoErr ∧
    (r.llWrite [0x20, 0, 0] none).map (fun x => x.2.1) = some .ok :=
  ⟨{ Rp.init true 2 4 5 with state := .opened, tx := { (Rp.init true 2 4 5).tx with max := 4 } }, rfl, by decide +kernel,
    by decide +kernel⟩

end Gensio.Relpkt
