import Verif.Props.MuxBad

/-!
# A mux session does not get stuck (C71)
-/

namespace Gensio.Mux

/-- A channel that does not wait to be sent has nothing to send or no window for it; and no message is too large for the
window. -/
def LiveC (c : Chan) : Prop :=
  (c.wrReady = false → c.wr.len = 0 ∨ c.nextLen + 3 > c.windowLeft) ∧ ∀ f ∈ c.acc, f.2.length + 3 ≤ c.window

def Live (m : Mux) : Prop := ∀ (i : Nat) (c : Chan), m.chans[i]? = some c → LiveC c

theorem LiveC.same {c c' : Chan} (h : LiveC c) (h1 : c'.wrReady = c.wrReady) (h2 : c'.wr = c.wr)
    (h3 : c'.sentUnacked = c.sentUnacked) (h4 : c'.window = c.window) (h5 : c'.acc = c.acc) : LiveC c' := by
  unfold LiveC Chan.nextLen Chan.windowLeft at *
  rw [h1, h2, h3, h4, h5]
  exact h

theorem Live.set {m : Mux} (h : Live m) {i : Nat} {c' : Chan} (hc : LiveC c') : Live (m.set i c') := by
  intro j d hd
  simp only [Mux.set, List.getElem?_set] at hd
  split at hd
  · split at hd
    · rw [← Option.some.inj hd]; exact hc
    · cases hd
  · exact h j d hd

theorem Live.congr {m m' : Mux} (h : Live m) (e : m'.chans = m.chans) : Live m' := by
  intro i c hc
  rw [e] at hc
  exact h i c hc

theorem addWr_live {m m' : Mux} {i : Nat} (h : ∀ (j : Nat) (c : Chan), m.chans[j]? = some c → j ≠ i → LiveC c)
    (hi : ∀ c, m.chans[i]? = some c → ∀ f ∈ c.acc, f.2.length + 3 ≤ c.window) (e : m.addWr i = some m') : Live m' := by
  rw [Mux.addWr] at e
  split at e
  · cases e
  · rename_i c hc
    split at e
    · rename_i hw
      rw [← Option.some.inj e]
      intro j d hd
      by_cases hj : j = i
      · subst hj
        rw [hc] at hd
        have := Option.some.inj hd
        subst this
        exact ⟨fun hf => (by rw [hw] at hf; cases hf), hi _ hc⟩
      · exact h j d hd hj
    · split at e
      · cases e
      · rw [← Option.some.inj e]
        intro j d hd
        simp only [Mux.set] at hd
        rw [set_get hc] at hd
        split at hd
        · rw [← Option.some.inj hd]
          exact ⟨fun hf => (by cases hf), hi c hc⟩
        · exact h j d hd (by assumption)

theorem Live.addWr {m m' : Mux} (h : Live m) {i : Nat} (e : m.addWr i = some m') : Live m' :=
  addWr_live (fun j c hc _ => h j c hc) (fun c hc => (h i c hc).2) e

theorem LiveC.rd {c c' : Chan} (h : LiveC c) (hr : RdOnly c c') : LiveC c' := by
  unfold RdOnly at hr
  exact h.same (by rw [hr]) (by rw [hr]) (by rw [hr]) (by rw [hr]) (by rw [hr])

theorem Live.checkRead {m m' : Mux} (h : Live m) {i : Nat} {ans : List Ans} (e : m.checkRead i ans = some m') : Live m' := by
  rw [Mux.checkRead] at e
  split at e
  · cases e
  · rename_i c hc
    split at e
    · cases e
    · rename_i c' hr
      have hl := h.set (i := i) ((h i c hc).rd (readLoop_rd _ _ _ _ hr))
      split at e
      · exact hl.addWr e
      · rw [← Option.some.inj e]; exact hl

theorem Live.dataDone {m m' : Mux} (h : Live m) {i : Nat} {en : Env} (e : m.dataDone i en = some m') : Live m' := by
  rw [Mux.dataDone] at e
  split at e
  · cases e
  · rename_i m2 h2
    rw [← Option.some.inj e]
    refine Live.congr (m := m2) ?_ rfl
    split at h2
    · exact h.checkRead h2
    · rw [← Option.some.inj h2]; exact h

theorem Live.onData {m m' : Mux} (h : Live m) (e : m.onData = some m') : Live m' := by
  rw [Mux.onData] at e
  split at e
  · rw [← Option.some.inj e]; exact h.congr rfl
  · rename_i i hi
    split at e
    · cases e
    · rename_i c hc
      have hl := h i c hc
      split at e
      · rw [← Option.some.inj e]; exact h.congr rfl
      · simp only at e
        split at e
        · rw [← Option.some.inj e]; exact h.congr rfl
        · split at e
          · refine addWr_live (fun j d hd hj => ?_) (fun d hd => ?_) e
            · simp only [Mux.set] at hd
              rw [set_get hc, if_neg hj] at hd
              exact h j d hd
            · simp only [Mux.set] at hd
              rw [set_get hc, if_pos rfl] at hd
              rw [← Option.some.inj hd]
              exact hl.2
          · rename_i hq
            rw [← Option.some.inj e]
            refine Live.congr (h.set (i := i) (c' := { c with sentUnacked := c.sentUnacked - rd32 m.hdr 4 }) ?_) rfl
            refine ⟨fun hw => ?_, hl.2⟩
            by_cases hz : c.wr.len = 0
            · exact Or.inl hz
            · have : rd32 m.hdr 4 = 0 := by
                rcases Nat.eq_zero_or_pos (rd32 m.hdr 4) with e0 | e0
                · exact e0
                · exact absurd ⟨e0, hz⟩ hq
              have h0 := hl.1 hw
              unfold Chan.nextLen Chan.windowLeft at *
              simp only [this, Nat.sub_zero]
              exact h0

theorem Live.rxByte {m m' : Mux} (h : Live m) (h1 : m.inHdr = true → m.hdrPos = 0 ∨ m.msgid = 5)
    (h2 : m.inHdr = false → m.msgid = 5) {b : UInt8} {en : Env} (e : m.rxByte b en = some m') : Live m' := by
  rw [Mux.rxByte] at e
  split at e
  · rw [← Option.some.inj e]; exact h.congr rfl
  · split at e
    · rename_i hh
      rw [Mux.rxHdr] at e
      split at e
      · simp only at e
        split at e
        · rw [← Option.some.inj e]; exact h.congr rfl
        · split at e
          · rw [← Option.some.inj e]; exact h.congr rfl
          · split at e
            · rw [← Option.some.inj e]; exact h.congr rfl
            · rw [← Option.some.inj e]; exact h.congr rfl
      · rename_i hp
        have h5 := (h1 hh).resolve_left hp
        split at e
        · rw [← Option.some.inj e]; exact h.congr rfl
        · rw [Mux.onHdr] at e
          simp only [h5] at e
          rw [if_neg (by decide)] at e
          split at e
          · rw [← Option.some.inj e]; exact h.congr rfl
          · rw [if_neg (by decide), if_neg (by decide), if_neg (by decide), if_pos trivial] at e
            exact Live.onData (Live.congr h (by rfl)) e
    · rename_i hh
      have h5 := h2 (by simpa using hh)
      split at e
      · rw [← Option.some.inj e]; exact h.congr rfl
      · split at e
        · rw [Mux.rxLen] at e
          simp only [h5] at e
          split at e
          · cases e
          · rename_i i hi
            split at e
            · cases e
            · rename_i c hc
              rw [if_neg (by decide), if_pos trivial] at e
              split at e
              · exact Live.dataDone (Live.congr h (by rfl)) e
              · split at e
                · rw [← Option.some.inj e]; exact h.congr rfl
                · split at e
                  · cases e
                  · rename_i r hr
                    rw [← Option.some.inj e]
                    exact Live.set (h.congr rfl) ((h i c hc).same rfl rfl rfl rfl rfl)
        · rw [Mux.rxBody] at e
          simp only [h5] at e
          split at e
          · cases e
          · rename_i i hi
            split at e
            · cases e
            · rename_i c hc
              rw [if_neg (by decide), if_pos trivial] at e
              split at e
              · cases e
              · rename_i r hr
                have hs : LiveC { c with rd := r, rcv := addLast c.rcv b } := (h i c hc).same rfl rfl rfl rfl rfl
                split at e
                · rw [← Option.some.inj e]
                  exact Live.congr (h.set (i := i) hs) rfl
                · exact Live.dataDone (h.set hs) e

theorem Live.write {m m' : Mux} (h : Live m) {i : Nat} {sg : List (List UInt8)} {eom oob : Bool} {r : WrRes}
    (e : m.write i sg eom oob = some (m', r)) : Live m' := by
  have done : ∀ v, some (m, v) = some (m', r) → Live m' := by
    intro v hv
    have := Option.some.inj hv
    rw [← (Prod.mk.inj this).1]
    exact h
  rw [Mux.write] at e
  split at e
  · cases e
  · rename_i c hc
    split at e
    · exact done _ e
    · split at e
      · exact done _ e
      · split at e
        · exact done _ e
        · split at e
          · exact done _ e
          · rename_i t tr hr
            split at e
            · cases e
            · rename_i m2 hq
              have := Option.some.inj e
              rw [← (Prod.mk.inj this).1]
              rw [Mux.queue] at hq
              split at hq
              · cases hq
              · split at hq
                · cases hq
                · rename_i q1 hq1 q2 hq2
                  refine addWr_live (fun j d hd hj => ?_) (fun d hd => ?_) hq
                  · simp only [Mux.set] at hd
                    rw [set_get hc, if_neg hj] at hd
                    exact h j d hd
                  · simp only [Mux.set] at hd
                    rw [set_get hc, if_pos rfl] at hd
                    rw [← Option.some.inj hd]
                    intro f hf
                    rcases List.mem_append.mp hf with hf | hf
                    · exact (h i c hc).2 f hf
                    · obtain ⟨r1, r2, r3, r4, r5⟩ := room_spec hr (by omega)
                      rw [List.mem_singleton.mp hf]
                      simp only [List.length_take]
                      omega

theorem Live.txStep {a b : TxSt} (hs : TxStep a b) (hM : MInv a.1 a.2.1 a.2.2) (h : Live a.1)
    (h0 : ∀ (i : Nat) (c : Chan), a.1.chans[i]? = some c → c.sendNew = false ∧ c.closeSent = false) : Live b.1 := by
  cases hs with
  | skip i l c c' e1 e2 e3 e4 e5 e6 =>
    refine Live.congr (h.set (i := i) (c' := c') ?_) rfl
    have := e6 (h0 i c e4).1 (h0 i c e4).2
    have h2 := (h i c e4).2
    rw [e5]
    exact ⟨fun _ => this, h2⟩
  | start i l c c' q' z e1 e2 e3 e4 e5 e6 e7 e8 e9 =>
    refine Live.congr (h.set (i := i) (c' := c') ?_) rfl
    have hr : c.wrReady = true := (hM.ready i c e4).mpr (Or.inl (by rw [e3]; simp))
    have h3 := e5.ready.1
    refine ⟨fun hf => (by rw [h3, hr] at hf; cases hf), ?_⟩
    have h2 := (h i c e4).2
    cases e5 with
    | newChan _ g => rw [g]; exact h2
    | close _ _ _ g => rw [g]; exact h2
    | data _ _ _ _ g =>
      cases g with
      | ack g => rw [g]; exact h2
      | msg f q2 g1 g2 g3 g4 => rw [g3]; exact h2
  | part i n c e1 e2 e3 =>
    exact Live.congr (h.set (i := i) (c' := { c with sg := advance c.sg n }) ((h i c e2).same rfl rfl rfl rfl rfl)) rfl
  | done i c c' w e1 e2 e3 e4 e5 =>
    refine Live.congr (h.set (i := i) (c' := c') ?_) rfl
    have hr : c.wrReady = true := (hM.ready i c e2).mpr (Or.inr e1)
    have h2 := (h i c e2).2
    refine ⟨fun hf => Or.inl (e5 hf hr), ?_⟩
    rw [e3]
    exact h2
  | xmit n z e1 e2 e3 e4 e5 =>
    refine Live.congr h ?_
    rw [Mux.sendXmit]
    simp only
    split <;> rfl
  | other b st e1 e2 => exact h.congr (by rw [e1])

theorem Live.txSteps {a b : TxSt} (hs : TxSteps a b) {log : List Dat} {inn : List Dat} {x : Dat}
    {k : Nat} {R : Nat → List Frame} {P : Par} (h : Side a.1 log a.2.2 inn x k R P)
    (hL : a.2.1 = log.map Dat.msg) (hl : Live a.1) : Live b.1 := by
  induction hs with
  | refl => exact hl
  | tail hs st ih =>
    obtain ⟨log1, e1, e2, e3, e4⟩ := h.txSteps hs hL
    refine Live.txStep st ?_ ih (fun i c hc => ⟨(e4.rest.chan i c hc).sendNew, (e4.rest.chan i c hc).closeSent⟩)
    have := e4.tx
    rw [← e1] at this
    exact this

/-- Both ends of a session keep it. -/
theorem Session.liveOp {z : Bool} {a b : Mux} {na nb : Nat} (h : Session z a b na nb) (hl : Live a) {op : Op}
    (ha : Allowed a b op = true) {a' : Mux} (e : a.step op = some a') : Live a' := by
  obtain ⟨log, Q, inn, x, k, R, P, hs⟩ := h.side
  cases op with
  | alloc _ _ => cases ha
  | opn _ => cases ha
  | close _ => cases ha
  | recv _ _ => cases ha
  | write i sg eom oob =>
    rw [Mux.step] at e
    split at e
    · cases e
    · rename_i m2 r hw
      rw [← Option.some.inj e]
      exact hl.write hw
  | readEnable i en =>
    rw [Mux.step, Mux.readEnable] at e
    split at e
    · cases e
    · rename_i c hc
      rw [← Option.some.inj e]
      exact hl.set ((hl i c hc).same rfl rfl rfl rfl rfl)
  | oob i en =>
    rw [Mux.step, Mux.setOob] at e
    split at e
    · cases e
    · rename_i c hc
      rw [← Option.some.inj e]
      exact hl.set ((hl i c hc).same rfl rfl rfl rfl rfl)
  | deferred i ans =>
    rw [Mux.step, Mux.deferred] at e
    split at e
    · cases e
    · rename_i m2 h2
      have hl2 := hl.checkRead h2
      split at e
      · cases e
      · rename_i c hc
        split at e
        · split at e
          · cases e
          · rw [← Option.some.inj e]
            have := hl2.set (i := i) (c' := { c with state := .closed }) ((hl2 i c hc).same rfl rfl rfl rfl rfl)
            simp only
            split
            · exact this.congr rfl
            · exact this.congr rfl
        · rw [← Option.some.inj e]; exact hl2
  | writeReady ans =>
    obtain ⟨m', L', Q', e1, hst⟩ := writeReady_spec hs.tx hs.svc ans
    have e2 : a.step (.writeReady ans) = a.writeReady ans := rfl
    rw [e2, e1] at e
    rw [← Option.some.inj e]
    exact Live.txSteps hst hs rfl hl

theorem Session.liveRecv {z : Bool} {a b : Mux} {na nb : Nat} (h : Session z a b na nb) (hl : Live a) {bt : UInt8} {en : Env}
    {a' : Mux} (e : a.rxByte bt en = some a') : Live a' := by
  obtain ⟨log, Q, inn, x, k, R, P, hs⟩ := h.side
  have hp := hs.rest.parse
  refine hl.rxByte (fun h1 => ?_) (fun h1 => ?_) e
  · by_cases hk : k = 0
    · exact Or.inl (hp.zero hk).2
    · by_cases hk8 : k < 8
      · exact Or.inr (hp.head (by omega) hk8).2.2.2.1
      · have := (hp.body (by omega)).1
        rw [h1] at this; cases this
  · by_cases hk : k = 0
    · have := (hp.zero hk).1
      rw [h1] at this; cases this
    · by_cases hk8 : k < 8
      · have := (hp.head (by omega) hk8).1
        rw [h1] at this; cases this
      · exact (hp.body (by omega)).2.1

theorem Session.runLive {z : Bool} : ∀ (ops : List POp) (p : Pair), Session z p.a p.b p.na p.nb → Live p.a → Live p.b →
    p.fair ops = true → ∃ p', p.run ops = some p' ∧ Session z p'.a p'.b p'.na p'.nb ∧ Live p'.a ∧ Live p'.b
  | [], p, h, la, lb, _ => ⟨p, rfl, h, la, lb⟩
  | op :: ops, p, h, la, lb, hf => by
    rw [Pair.fair, Bool.and_eq_true] at hf
    obtain ⟨h1, h2⟩ := hf
    have key : ∃ p', p.step op = some p' ∧ Session z p'.a p'.b p'.na p'.nb ∧ Live p'.a ∧ Live p'.b := by
      cases op with
      | left op =>
        obtain ⟨a', e, hs⟩ := h.op h1
        exact ⟨{ p with a := a' }, by rw [Pair.step, e]; rfl, hs, h.liveOp la h1 e, lb⟩
      | right op =>
        obtain ⟨b', e, hs⟩ := h.symm.op h1
        exact ⟨{ p with b := b' }, by rw [Pair.step, e]; rfl, hs.symm, la, h.symm.liveOp lb h1 e⟩
      | toLeft e =>
        rw [Pair.step]
        split
        · rename_i hn
          obtain ⟨a', e1, hs⟩ := h.recv hn e
          exact ⟨{ p with a := a', na := p.na + 1 }, by rw [e1]; rfl, hs, h.liveRecv la e1, lb⟩
        · exact ⟨p, rfl, h, la, lb⟩
      | toRight e =>
        rw [Pair.step]
        split
        · rename_i hn
          obtain ⟨a', e1, hs⟩ := h.symm.recv hn e
          exact ⟨{ p with b := a', nb := p.nb + 1 }, by rw [e1]; rfl, hs.symm, la, h.symm.liveRecv lb e1⟩
        · exact ⟨p, rfl, h, la, lb⟩
    obtain ⟨p', e, hs, la, lb⟩ := key
    rw [e] at h2
    rw [Pair.run, e]
    exact Session.runLive ops p' hs la lb h2

theorem Fresh.live {m : Mux} (h : Fresh m) : Live m := by
  intro i c hc
  obtain ⟨-, -, -, -, -, -, -, -, -, -, -, h10, h11, h12, h13, h14, h15, h16, -⟩ := h.2.2.2.2.2.2.2.2.2.2.2.2.2 c (List.mem_of_getElem? hc)
  obtain ⟨-, -, -, -, -, hacc, -⟩ := (h.2.2.2.2.2.2.2.2.2.2.2.2.2 c (List.mem_of_getElem? hc)).2.2.2.2.2.2.2.2.2.2.2.2.2
  refine ⟨fun _ => Or.inl (by assumption), ?_⟩
  rw [hacc]
  intro f hf
  cases hf

/-- The length of the first message that waits. -/
theorem nextLen_eq {c : Chan} {f : Frame} {q : List Frame} (h : ChanTx c (f :: q)) (hs : c.sg = []) :
    c.nextLen = f.2.length := by
  have hi := h.idle hs
  have hf := h.ok f (List.mem_cons_self ..)
  have hll : (List.flatMap enc (f :: q)).length = f.2.length + 3 + (q.flatMap enc).length := by
    rw [List.flatMap_cons, List.length_append, enc_length]
  have hcont : List.flatMap enc (f :: q)
      = f.1 :: UInt8.ofNat (f.2.length / 256) :: UInt8.ofNat f.2.length :: (f.2 ++ q.flatMap enc) := by
    rw [List.flatMap_cons, enc]
    simp [be16]
  have g1 : c.wr.data.getD (c.wr.next 1) 0 = UInt8.ofNat (f.2.length / 256) := by
    rw [hi.getD (n := 1) (by omega)]; simp only [hcont]; rfl
  have g2 : c.wr.data.getD (c.wr.next 2) 0 = UInt8.ofNat f.2.length := by
    rw [hi.getD (n := 2) (by omega)]; simp only [hcont]; rfl
  rw [Chan.nextLen, g1, g2, be16_val hf.2]

/-- Nothing waits in the write buffer of a channel that is at rest with its whole window free. -/
theorem Session.empty {z : Bool} {a b : Mux} {na nb : Nat} (h : Session z a b na nb) (hl : Live a) (h1 : a.sending = none)
    (h2 : a.wrchans = []) {c : Chan} (hc : c ∈ a.chans) (h3 : c.sentUnacked = 0) : c.wr.len = 0 := by
  obtain ⟨log, Q, inn, x, k, R, P, hs⟩ := h.side
  obtain ⟨i, hi, hic⟩ := List.getElem_of_mem hc
  have hc : a.chans[i]? = some c := by rw [List.getElem?_eq_getElem hi, hic]
  have hw : c.wrReady = false := by
    cases hw : c.wrReady with
    | false => rfl
    | true =>
      rcases (hs.tx.ready i c hc).mp hw with e | e
      · rw [h2] at e; cases e
      · rw [h1] at e; cases e
  have hsg : c.sg = [] := by
    cases hsg : c.sg with
    | nil => rfl
    | cons s l =>
      have := (hs.tx.snd i c hc).mp (by rw [hsg]; simp)
      rw [h1] at this; cases this
  have ht := hs.tx.chan i c hc
  have hacc := (hs.rest.chan i c hc).acc
  rcases (hl i c hc).1 hw with e | e
  · exact e
  · cases hq : Q i with
    | nil =>
      have := (ht.idle hsg).len
      rw [hq] at this
      exact this
    | cons f q =>
      exfalso
      rw [hq] at ht hacc
      rw [nextLen_eq ht hsg, Chan.windowLeft, h3, if_pos (Nat.zero_le _)] at e
      have := (hl i c hc).2 f (by rw [hacc]; simp)
      omega

/-- C71, partly: such a session never gets stuck with data that waits.  When neither end has anything to send, all bytes have
arrived, and the users have taken all data that was offered with nothing left to acknowledge, then nothing is left in a
write buffer: everything written has been received.

Missing: as for `C33_stream_partial`, and that a mux with something to send asks its child to be called again, which is C69.
The deferred call that sends an acknowledgement is assumed to come, as `recvUnacked = 0`. -/
theorem C71_no_deadlock_partial {a b : Mux} (ha : Fresh a) (hb : Fresh b) (hj : Joined a b)
    (h0 : (∀ c ∈ a.chans, c.sentUnacked = 0) ∧ ∀ d ∈ b.chans, d.sentUnacked = 0) (ops : List POp)
    (hf : (Pair.mk a b 0 0).fair ops = true) :
    ∃ p, (Pair.mk a b 0 0).run ops = some p
      ∧ (p.a.sending = none → p.a.wrchans = [] → p.nb = p.a.out.length →
         p.b.sending = none → p.b.wrchans = [] → p.na = p.b.out.length →
         ∀ c ∈ p.a.chans, ∀ d ∈ p.b.chans, c.remoteId = d.id → c.id = d.remoteId →
           c.rd.len = 0 → c.recvUnacked = 0 → d.rd.len = 0 → d.recvUnacked = 0 →
           c.wr.len = 0 ∧ d.wr.len = 0 ∧ received d = written c ∧ received c = written d) := by
  obtain ⟨p, e, hs, la, lb⟩ := Session.runLive ops ⟨a, b, 0, 0⟩ (Fresh.session ha hb hj true (fun _ => h0)) ha.live hb.live hf
  refine ⟨p, e, fun h1 h2 h3 h4 h5 h6 c hc d hd e1 e2 f1 f2 f3 f4 => ?_⟩
  have w1 := hs.empty la h1 h2 hc (hs.free h1 h3 h4 h6 hc hd e1 e2 f3 f4)
  have w2 := hs.symm.empty lb h4 h5 hd (hs.symm.free h4 h6 h1 h3 hd hc e2.symm e1.symm f1 f2)
  exact ⟨w1, w2, (hs.data hc hd e1).2.2.2 h1 h3 w1 f3, (hs.symm.data hd hc e2.symm).2.2.2 h4 h6 w2 f1⟩

/-- The session of `smallOps` comes to rest in this sense after the window was full on the way. -/
def restOps : List POp :=
  [.left (.write 0 [List.replicate 9 5] true false), .left (.writeReady [some 99]),
   .left (.write 0 [List.replicate 9 6] true false), .left (.writeReady [some 99]),
   .left (.write 0 [List.replicate 3 7] true false), .left (.writeReady [some 99])]
  ++ List.replicate 38 (.toRight { reads := [(9, true), (9, true), (9, true)] })
  ++ [.right (.writeReady [some 99])] ++ List.replicate 10 (.toLeft {}) ++ [.left (.writeReady [some 99])]
  ++ List.replicate 13 (.toRight { reads := [(9, true), (9, true), (9, true)] })
  ++ [.right (.writeReady [some 99])] ++ List.replicate 10 (.toLeft {})

example : (Pair.mk smallA smallB 0 0).fair restOps = true
    ∧ ((Pair.mk smallA smallB 0 0).run (restOps.take 6)).map (fun p => (p.a.sending, p.a.wrchans, p.a.chans.map (·.wr.len)))
      = some (none, [], [6])
    ∧ ((Pair.mk smallA smallB 0 0).run restOps).map (fun p => (p.a.sending, p.a.wrchans, p.b.sending, p.b.wrchans))
      = some (none, [], none, [])
    ∧ ((Pair.mk smallA smallB 0 0).run restOps).map (fun p => (p.nb == p.a.out.length, p.na == p.b.out.length))
      = some (true, true)
    ∧ ((Pair.mk smallA smallB 0 0).run restOps).map (fun p => (p.a.chans.map (fun c => (c.rd.len, c.recvUnacked, c.wr.len)),
        p.b.chans.map (fun c => (c.rd.len, c.recvUnacked, received c))))
      = some ([(0, 0, 0)], [(0, 0, List.replicate 9 (.byte 5 false) ++ [.eom false] ++ List.replicate 9 (.byte 6 false)
          ++ [.eom false] ++ List.replicate 3 (.byte 7 false) ++ [.eom false])]) := by
  refine ⟨by decide +kernel, by decide +kernel, by decide +kernel, by decide +kernel, by decide +kernel⟩

end Gensio.Mux
