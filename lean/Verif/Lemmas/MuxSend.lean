import Verif.Lemmas.MuxTx

/-!
# The sending side of a mux as a whole
-/

namespace Gensio.Mux

/-- What is left of the message that is being sent. -/
def Mux.cur (m : Mux) : List UInt8 :=
  match m.sending with
  | some i =>
    match m.chans[i]? with
    | some c => c.pend
    | none => []
  | none => if m.xmitPos = 0 then [] else m.xmit.drop m.xmitPos

/-- The sending side is in order: `log` are the messages sent, the last perhaps not completely, and `Q i` the messages
waiting on channel `i`. -/
structure MInv (m : Mux) (log : List Msg) (Q : Nat → List Frame) : Prop where
  chan : ∀ i c, m.chans[i]? = some c → ChanTx c (Q i)
  snd : ∀ i c, m.chans[i]? = some c → (c.sg ≠ [] ↔ m.sending = some i)
  sndIn : ∀ i, m.sending = some i → i < m.chans.length
  ready : ∀ i c, m.chans[i]? = some c → (c.wrReady = true ↔ i ∈ m.wrchans ∨ m.sending = some i)
  inList : ∀ i c, m.chans[i]? = some c → (c.inWrlist = true ↔ i ∈ m.wrchans)
  excl : ∀ i, m.sending = some i → i ∉ m.wrchans
  nodup : m.wrchans.Nodup
  wrIn : ∀ i ∈ m.wrchans, i < m.chans.length
  xmit : (m.xmit = [] ∧ m.xmitPos = 0) ∨ ∃ x : Msg, x.Ok ∧ m.xmit = x.bytes ∧ m.xmitPos < m.xmit.length
  xs : m.xmitPos ≠ 0 → m.sending = none
  frame : m.out ++ m.cur = log.flatMap Msg.bytes
  logOk : ∀ x ∈ log, x.Ok

/-- Changing what is kept for one channel. -/
def upd {α : Type} (Q : Nat → α) (i : Nat) (q : α) : Nat → α := fun j => if j = i then q else Q j

theorem upd_same {α : Type} (Q : Nat → α) (i : Nat) (q : α) : upd Q i q i = q := by simp [upd]
theorem upd_other {α : Type} (Q : Nat → α) {i j : Nat} (q : α) (h : j ≠ i) : upd Q i q j = Q j := by simp [upd, h]
theorem upd_self {α : Type} (Q : Nat → α) (i : Nat) : upd Q i (Q i) = Q := by
  funext j; by_cases h : j = i <;> simp [upd, h]

theorem lt_of_get {m : Mux} {i : Nat} {c : Chan} (h : m.chans[i]? = some c) : i < m.chans.length :=
  (List.getElem?_eq_some_iff.mp h).1

theorem set_get {m : Mux} {i j : Nat} {c c' : Chan} (h : m.chans[i]? = some c) :
    (m.chans.set i c')[j]? = if j = i then some c' else m.chans[j]? := by
  rw [List.getElem?_set]
  have := lt_of_get h
  by_cases hji : i = j
  · subst hji; simp [this]
  · simp [hji, Ne.symm hji]

/-- Only these parts of a mux matter for the sending side. -/
theorem MInv.congr {m m' : Mux} {log : List Msg} {Q : Nat → List Frame} (h : MInv m log Q) (h1 : m'.chans = m.chans)
    (h2 : m'.sending = m.sending) (h3 : m'.wrchans = m.wrchans) (h4 : m'.xmit = m.xmit) (h5 : m'.xmitPos = m.xmitPos)
    (h6 : m'.out = m.out) : MInv m' log Q := by
  have hc : m'.cur = m.cur := by simp only [Mux.cur, h1, h2, h4, h5]
  refine ⟨?_, ?_, ?_, ?_, ?_, ?_, ?_, ?_, ?_, ?_, ?_, h.logOk⟩
  · rw [h1]; exact h.chan
  · rw [h1, h2]; exact h.snd
  · rw [h1, h2]; exact h.sndIn
  · rw [h1, h2, h3]; exact h.ready
  · rw [h1, h3]; exact h.inList
  · rw [h2, h3]; exact h.excl
  · rw [h3]; exact h.nodup
  · rw [h1, h3]; exact h.wrIn
  · rw [h4, h5]; exact h.xmit
  · rw [h2, h5]; exact h.xs
  · rw [h6, hc]; exact h.frame

/-- Changing a channel without changing what it is sending. -/
theorem MInv.set {m : Mux} {log : List Msg} {Q : Nat → List Frame} (h : MInv m log Q) {i : Nat} {c c' : Chan}
    (hc : m.chans[i]? = some c) {q' : List Frame} (ht : ChanTx c' q') (hs : c'.sg ≠ [] ↔ c.sg ≠ [])
    (hp : c.sg ≠ [] → c'.pend = c.pend) (hw : c'.wrReady = c.wrReady) (hi : c'.inWrlist = c.inWrlist) :
    MInv (m.set i c') log (upd Q i q') := by
  have hl := lt_of_get hc
  have hg : ∀ j d, (m.set i c').chans[j]? = some d → (j = i ∧ d = c') ∨ (j ≠ i ∧ m.chans[j]? = some d) := by
    intro j d hd
    simp only [Mux.set, set_get hc] at hd
    by_cases hji : j = i
    · rw [if_pos hji] at hd; exact Or.inl ⟨hji, (Option.some.inj hd).symm⟩
    · rw [if_neg hji] at hd; exact Or.inr ⟨hji, hd⟩
  refine ⟨?_, ?_, ?_, ?_, ?_, h.excl, h.nodup, ?_, h.xmit, h.xs, ?_, h.logOk⟩
  · intro j d hd
    rcases hg j d hd with ⟨rfl, rfl⟩ | ⟨hji, hd⟩
    · rw [upd_same]; exact ht
    · rw [upd_other _ _ hji]; exact h.chan j d hd
  · intro j d hd
    rcases hg j d hd with ⟨rfl, rfl⟩ | ⟨hji, hd⟩
    · rw [hs]; exact h.snd _ _ hc
    · exact h.snd j d hd
  · intro j hj
    simp only [Mux.set, List.length_set]
    exact h.sndIn j hj
  · intro j d hd
    rcases hg j d hd with ⟨rfl, rfl⟩ | ⟨hji, hd⟩
    · rw [hw]; exact h.ready _ _ hc
    · exact h.ready j d hd
  · intro j d hd
    rcases hg j d hd with ⟨rfl, rfl⟩ | ⟨hji, hd⟩
    · rw [hi]; exact h.inList _ _ hc
    · exact h.inList j d hd
  · intro j hj
    simp only [Mux.set, List.length_set]
    exact h.wrIn j hj
  · have : (m.set i c').cur = m.cur := by
      simp only [Mux.cur, Mux.set]
      cases hsd : m.sending with
      | none => rfl
      | some k =>
        simp only [set_get hc]
        by_cases hki : k = i
        · subst hki
          rw [if_pos rfl, hc]
          exact hp ((h.snd _ _ hc).mpr hsd)
        · rw [if_neg hki]
    rw [this]
    exact h.frame

/-- `MInv.set` when the write buffer is not touched. -/
theorem MInv.set' {m : Mux} {log : List Msg} {Q : Nat → List Frame} (h : MInv m log Q) {i : Nat} {c c' : Chan}
    (hc : m.chans[i]? = some c) (h1 : c'.wr = c.wr) (h2 : c'.sg = c.sg) (h3 : c'.curLen = c.curLen) (h4 : c'.hdr = c.hdr)
    (h5 : c'.service = c.service ∨ c.sg = []) (hw : c'.wrReady = c.wrReady) (hi : c'.inWrlist = c.inWrlist) :
    MInv (m.set i c') log Q := by
  have ht := h.chan _ _ hc
  have hseg : ∀ s ∈ c.sg, c'.segBytes s = c.segBytes s := by
    intro s hs
    rcases h5 with h5 | h5
    · cases s <;> simp [Chan.segBytes, h1, h4, h5]
    · rw [h5] at hs; cases hs
  have := h.set hc (c' := c') (q' := Q i) ?_ (by rw [h2]) ?_ hw hi
  · rw [upd_self] at this; exact this
  · refine ⟨?_, ht.ok, ?_, ?_, ?_⟩
    · rw [h3, h1]; exact ht.ring
    · rw [h2, h3, h1]; exact ht.segs
    · rw [h2]
      intro s hs
      rw [hseg s hs]
      exact ht.seglen s hs
    · rw [h2, h3]; exact ht.cur
  · intro _
    rw [Chan.pend, Chan.pend, h2]
    have : ∀ l : List Seg, (∀ s ∈ l, s ∈ c.sg) → l.flatMap c'.segBytes = l.flatMap c.segBytes := by
      intro l
      induction l with
      | nil => intro _; rfl
      | cons s l ih =>
        intro hm
        rw [List.flatMap_cons, List.flatMap_cons, ih (fun s hs => hm s (List.mem_cons_of_mem _ hs)),
          hseg s (hm s (List.mem_cons_self ..))]
    exact this c.sg (fun _ h => h)

/-- What `addWr` leaves alone. -/
structure AddWr (m m' : Mux) (i : Nat) : Prop where
  chans : ∃ c c', m.chans[i]? = some c ∧ m'.chans = m.chans.set i c'
    ∧ c' = { c with wrReady := c'.wrReady, inWrlist := c'.inWrlist }
  rest : ∃ w b, m' = { m with chans := m'.chans, wrchans := w, wrEn := b }

theorem MInv.addWr {m : Mux} {log : List Msg} {Q : Nat → List Frame} (h : MInv m log Q) {i : Nat} {c : Chan}
    (hc : m.chans[i]? = some c) : ∃ m', m.addWr i = some m' ∧ MInv m' log Q ∧ AddWr m m' i := by
  rw [Mux.addWr]
  simp only [hc]
  have hl := lt_of_get hc
  by_cases hr : c.wrReady = true
  · rw [if_pos hr]
    refine ⟨m, rfl, h, ⟨⟨c, c, hc, ?_, rfl⟩, ⟨m.wrchans, m.wrEn, rfl⟩⟩⟩
    apply List.ext_getElem?
    intro j
    rw [set_get hc]
    by_cases hji : j = i
    · rw [if_pos hji, hji, hc]
    · rw [if_neg hji]
  · rw [if_neg hr]
    have hnl : i ∉ m.wrchans := fun hm => hr ((h.ready _ _ hc).mpr (Or.inl hm))
    have hns : m.sending ≠ some i := fun hm => hr ((h.ready _ _ hc).mpr (Or.inr hm))
    rw [if_neg (fun hin => hnl ((h.inList _ _ hc).mp hin))]
    refine ⟨_, rfl, ?_, ⟨⟨c, { c with wrReady := true, inWrlist := true }, hc, rfl, rfl⟩, ⟨_, _, rfl⟩⟩⟩
    have hsg : c.sg = [] := Decidable.byContradiction fun hne => hns ((h.snd _ _ hc).mp hne)
    have ht := h.chan _ _ hc
    have hg : ∀ j d, (m.chans.set i { c with wrReady := true, inWrlist := true })[j]? = some d →
        (j = i ∧ d = { c with wrReady := true, inWrlist := true }) ∨ (j ≠ i ∧ m.chans[j]? = some d) := by
      intro j d hd
      rw [set_get hc] at hd
      by_cases hji : j = i
      · rw [if_pos hji] at hd; exact Or.inl ⟨hji, (Option.some.inj hd).symm⟩
      · rw [if_neg hji] at hd; exact Or.inr ⟨hji, hd⟩
    refine ⟨?_, ?_, ?_, ?_, ?_, ?_, ?_, ?_, h.xmit, h.xs, ?_, h.logOk⟩
    · intro j d hd
      rcases hg j d hd with ⟨rfl, rfl⟩ | ⟨hji, hd⟩
      · exact ⟨ht.ring, ht.ok, ht.segs, ht.seglen, ht.cur⟩
      · exact h.chan j d hd
    · intro j d hd
      rcases hg j d hd with ⟨rfl, rfl⟩ | ⟨hji, hd⟩
      · exact h.snd _ c hc
      · exact h.snd j d hd
    · intro j hj
      simp only [Mux.set, List.length_set]
      exact h.sndIn j hj
    · intro j d hd
      simp only [List.mem_append, List.mem_singleton]
      rcases hg j d hd with ⟨rfl, rfl⟩ | ⟨hji, hd⟩
      · simp
      · have := h.ready j d hd
        simp only [hji, or_false]
        exact this
    · intro j d hd
      simp only [List.mem_append, List.mem_singleton]
      rcases hg j d hd with ⟨rfl, rfl⟩ | ⟨hji, hd⟩
      · simp
      · have := h.inList j d hd
        simp only [hji, or_false]
        exact this
    · intro j hj
      simp only [List.mem_append, List.mem_singleton, not_or]
      exact ⟨h.excl j hj, fun e => hns (by rw [← e]; exact hj)⟩
    · refine List.nodup_append.mpr ⟨h.nodup, by simp, ?_⟩
      intro a ha b hb
      rw [List.mem_singleton.mp hb]
      exact fun e => hnl (e ▸ ha)
    · intro j hj
      simp only [Mux.set, List.length_set]
      rcases List.mem_append.mp hj with hj | hj
      · exact h.wrIn j hj
      · rw [List.mem_singleton.mp hj]; exact hl
    · have : ∀ w b, ({ m.set i { c with wrReady := true, inWrlist := true } with wrchans := w, wrEn := b } : Mux).cur
          = m.cur := by
        intro w b
        simp only [Mux.cur, Mux.set]
        cases hsd : m.sending with
        | none => rfl
        | some k =>
          have hki : k ≠ i := fun e => hns (by rw [hsd, e])
          simp only [set_get hc, if_neg hki]
      rw [this]
      exact h.frame

/-! ## Elementary steps of sending -/

/-- What a channel can start to send. -/
inductive Start (c : Chan) (q : List Frame) : Chan → List Frame → Msg → Prop
  | newChan (c' : Chan) : c.sendNew = true →
      c' = { c with sendNew := false, inWrlist := false, hdr := c'.hdr, sg := c'.sg, sentUnacked := c'.sentUnacked,
                    curLen := 0 } →
      Start c q c' q (.newChan c.id c.rd.data.length c.service)
  | data (c' : Chan) (q' : List Frame) (x : Msg) : c.sendNew = false → c.closeSent = false →
      Setup { c with inWrlist := false } q c' true q' (some x) → Start c q c' q' x
  | close (c' : Chan) : c.sendNew = false → c.sendClose = true → (c.wr.len = 0 ∧ c.recvUnacked = 0 ∨ c.closeSent = true) →
      c' = { c with inWrlist := false, hdr := c'.hdr, sg := c'.sg, curLen := 0, sendClose := false, closeSent := true } →
      Start c q c' q (.close c.remoteId (if c.err = geRemClose then 0 else c.err))

theorem Setup.flags {c : Chan} {q : List Frame} {c' : Chan} {b : Bool} {q' : List Frame} {o : Option Msg}
    (h : Setup c q c' b q' o) : c'.wrReady = c.wrReady ∧ c'.inWrlist = c.inWrlist := by
  cases h with
  | nothing e => rw [e]; exact ⟨rfl, rfl⟩
  | ack e => rw [e]; exact ⟨rfl, rfl⟩
  | msg f _ _ _ e => rw [e]; exact ⟨rfl, rfl⟩

theorem Start.ready {c : Chan} {q : List Frame} {c' : Chan} {q' : List Frame} {x : Msg} (h : Start c q c' q' x) :
    c'.wrReady = c.wrReady ∧ c'.inWrlist = false := by
  cases h with
  | newChan _ e => rw [e]; exact ⟨rfl, rfl⟩
  | close _ _ _ e => rw [e]; exact ⟨rfl, rfl⟩
  | data _ _ _ _ e => exact e.flags

/-- State of the sending side with its history. -/
abbrev TxSt := Mux × List Msg × (Nat → List Frame)

/-- The length of the first message of the write buffer. -/
def Chan.nextLen (c : Chan) : Nat :=
  (c.wr.data.getD (c.wr.next 1) 0).toNat * 256 + (c.wr.data.getD (c.wr.next 2) 0).toNat

theorem setupData_false {c c' : Chan} (e : c.setupData = some (c', false)) :
    c.wr.len = 0 ∨ c.nextLen + 3 > c.windowLeft := by
  rw [Chan.setupData] at e
  simp only at e
  by_cases h1 : c.sg ≠ []
  · rw [if_pos h1] at e; cases e
  rw [if_neg h1] at e
  by_cases h2 : c.wr.len = 0
  · exact Or.inl h2
  rw [if_neg h2] at e
  by_cases h3 : c.wr.len ≤ 3
  · rw [if_pos h3] at e; cases e
  rw [if_neg h3] at e
  split at e
  · cases e
  · split at e
    · rename_i h5
      exact Or.inr h5
    · simp at e

inductive TxStep : TxSt → TxSt → Prop
  | skip {m : Mux} {log : List Msg} {Q : Nat → List Frame} (i : Nat) (l : List Nat) (c c' : Chan) :
      m.sending = none → m.xmit = [] → m.wrchans = i :: l → m.chans[i]? = some c →
      c' = { c with hdr := c'.hdr, inWrlist := false, wrReady := false } →
      (c.sendNew = false → c.closeSent = false → c.wr.len = 0 ∨ c.nextLen + 3 > c.windowLeft) →
      TxStep (m, log, Q) ({ m.set i c' with wrchans := l }, log, Q)
  | start {m : Mux} {log : List Msg} {Q : Nat → List Frame} (i : Nat) (l : List Nat) (c c' : Chan) (q' : List Frame)
      (x : Msg) :
      m.sending = none → m.xmit = [] → m.wrchans = i :: l → m.chans[i]? = some c →
      Start c (Q i) c' q' x → c'.pend = x.bytes → x.Ok → ChanTx c' q' → c'.sg ≠ [] →
      TxStep (m, log, Q) ({ m.set i c' with wrchans := l, sending := some i }, log ++ [x], upd Q i q')
  | part {m : Mux} {log : List Msg} {Q : Nat → List Frame} (i n : Nat) (c : Chan) :
      m.sending = some i → m.chans[i]? = some c → advance c.sg n ≠ [] →
      TxStep (m, log, Q) (({ m with out := m.out ++ c.pend.take n } : Mux).set i { c with sg := advance c.sg n }, log, Q)
  | done {m : Mux} {log : List Msg} {Q : Nat → List Frame} (i : Nat) (c c' : Chan) (w : List Nat) :
      m.sending = some i → m.chans[i]? = some c →
      c' = { c with wr := { c.wr with pos := c.wr.next c.curLen, len := ((Q i).flatMap enc).length }
                    curLen := 0, sg := [], wrReady := c'.wrReady, inWrlist := c'.inWrlist } →
      (w = m.wrchans ++ [i] ∧ c'.wrReady = c.wrReady ∧ c'.inWrlist = true
        ∨ w = m.wrchans ∧ c'.wrReady = false ∧ c'.inWrlist = c.inWrlist) →
      (c'.wrReady = false → c.wrReady = true → c'.wr.len = 0) →
      TxStep (m, log, Q) ({ m.set i c' with out := m.out ++ c.pend, sending := none, wrchans := w }, log, Q)
  | xmit {m : Mux} {log log' : List Msg} {Q : Nat → List Frame} (n : Nat) (x : Msg) :
      m.sending = none → m.xmit = x.bytes → x.Ok → m.xmitPos < m.xmit.length →
      (log' = log ∧ (m.xmitPos ≠ 0 ∨ n = 0) ∨ log' = log ++ [x] ∧ m.xmitPos = 0 ∧ n ≠ 0) →
      TxStep (m, log, Q) (m.sendXmit n, log', Q)
  | other {m m' : Mux} {log : List Msg} {Q : Nat → List Frame} (b : Bool) (s : MSt) :
      m' = { m with wrEn := b, state := s } → (s = m.state ∨ s = .inClose) → TxStep (m, log, Q) (m', log, Q)

inductive TxSteps : TxSt → TxSt → Prop
  | refl (a : TxSt) : TxSteps a a
  | tail {a b c : TxSt} : TxSteps a b → TxStep b c → TxSteps a c

theorem TxSteps.trans {a b c : TxSt} (h : TxSteps a b) (h2 : TxSteps b c) : TxSteps a c := by
  induction h2 with
  | refl => exact h
  | tail _ s ih => exact .tail ih s

theorem TxSteps.one {a b : TxSt} (h : TxStep a b) : TxSteps a b := .tail (.refl _) h

theorem cur_sending {m : Mux} {i : Nat} {c : Chan} (hs : m.sending = some i) (hc : m.chans[i]? = some c) :
    m.cur = c.pend := by simp only [Mux.cur, hs, hc]

theorem cur_idle {m : Mux} (hs : m.sending = none) (hx : m.xmitPos = 0) : m.cur = [] := by
  simp only [Mux.cur, hs, hx, if_pos]

theorem cur_xmit {m : Mux} (hs : m.sending = none) (hx : m.xmitPos ≠ 0) : m.cur = m.xmit.drop m.xmitPos := by
  simp only [Mux.cur, hs, if_neg hx]

/-- Every elementary step keeps the sending side in order. -/
theorem MInv.step {m m' : Mux} {log log' : List Msg} {Q Q' : Nat → List Frame} (h : MInv m log Q)
    (hs : TxStep (m, log, Q) (m', log', Q')) : MInv m' log' Q' := by
  cases hs with
  | other b s e _ => subst e; exact h.congr rfl rfl rfl rfl rfl rfl
  | skip i l c c' h1 h2 h3 h4 h5 =>
    have ht := h.chan _ _ h4
    have hsg : c.sg = [] := Decidable.byContradiction fun hne => by
      have := (h.snd _ _ h4).mp hne
      rw [h1] at this; cases this
    have hnd := h.nodup
    rw [h3] at hnd
    have hil : i ∉ l := (List.nodup_cons.mp hnd).1
    have hsg' : c'.sg = [] := by rw [h5]; exact hsg
    have hg : ∀ j d, (m.chans.set i c')[j]? = some d → (j = i ∧ d = c') ∨ (j ≠ i ∧ m.chans[j]? = some d) := by
      intro j d hd
      rw [set_get h4] at hd
      by_cases hji : j = i
      · rw [if_pos hji] at hd; exact Or.inl ⟨hji, (Option.some.inj hd).symm⟩
      · rw [if_neg hji] at hd; exact Or.inr ⟨hji, hd⟩
    refine ⟨?_, ?_, ?_, ?_, ?_, ?_, (List.nodup_cons.mp hnd).2, ?_, h.xmit, h.xs, ?_, h.logOk⟩
    · intro j d hd
      rcases hg j d hd with ⟨rfl, rfl⟩ | ⟨hji, hd⟩
      · refine ⟨?_, ht.ok, ?_, ?_, ?_⟩
        · rw [h5]; exact ht.ring
        · intro o n hm; rw [hsg'] at hm; cases hm
        · intro s hm; rw [hsg'] at hm; cases hm
        · intro _; rw [h5]; exact ht.cur hsg
      · exact h.chan j d hd
    · intro j d hd
      rcases hg j d hd with ⟨rfl, rfl⟩ | ⟨hji, hd⟩
      · simp [Mux.set, hsg', h1]
      · exact h.snd j d hd
    · intro j hj; simp only [Mux.set, h1] at hj; cases hj
    · intro j d hd
      rcases hg j d hd with ⟨rfl, rfl⟩ | ⟨hji, hd⟩
      · rw [h5]; simp [Mux.set, h1, hil]
      · have := h.ready j d hd
        rw [h3] at this
        simp only [List.mem_cons, hji, false_or] at this
        exact this
    · intro j d hd
      rcases hg j d hd with ⟨rfl, rfl⟩ | ⟨hji, hd⟩
      · rw [h5]; simp [hil]
      · have := h.inList j d hd
        rw [h3] at this
        simp only [List.mem_cons, hji, false_or] at this
        exact this
    · intro j hj; simp only [Mux.set, h1] at hj; cases hj
    · intro j hj
      simp only [Mux.set, List.length_set]
      exact h.wrIn j (by rw [h3]; exact List.mem_cons_of_mem _ hj)
    · have := h.frame
      simp only [Mux.cur, Mux.set, h1] at this ⊢
      exact this
  | start i l c c' q' x h1 h2 h3 h4 h5 h6 h7 h8 h9 =>
    have hnd := h.nodup
    rw [h3] at hnd
    have hil : i ∉ l := (List.nodup_cons.mp hnd).1
    have hx0 : m.xmitPos = 0 := by
      rcases h.xmit with hx | ⟨y, _, hy, hlt⟩
      · exact hx.2
      · rw [h2] at hlt; simp at hlt
    have hwr := h5.ready
    have hg : ∀ j d, (m.chans.set i c')[j]? = some d → (j = i ∧ d = c') ∨ (j ≠ i ∧ m.chans[j]? = some d) := by
      intro j d hd
      rw [set_get h4] at hd
      by_cases hji : j = i
      · rw [if_pos hji] at hd; exact Or.inl ⟨hji, (Option.some.inj hd).symm⟩
      · rw [if_neg hji] at hd; exact Or.inr ⟨hji, hd⟩
    have hrd : c.wrReady = true := (h.ready _ _ h4).mpr (Or.inl (by rw [h3]; exact List.mem_cons_self ..))
    refine ⟨?_, ?_, ?_, ?_, ?_, ?_, (List.nodup_cons.mp hnd).2, ?_, h.xmit, ?_, ?_, ?_⟩
    · intro j d hd
      rcases hg j d hd with ⟨rfl, rfl⟩ | ⟨hji, hd⟩
      · rw [upd_same]; exact h8
      · rw [upd_other _ _ hji]; exact h.chan j d hd
    · intro j d hd
      rcases hg j d hd with ⟨rfl, rfl⟩ | ⟨hji, hd⟩
      · simp [h9]
      · have := h.snd j d hd
        rw [h1] at this
        simp only [Option.some.injEq]
        constructor
        · intro hne; exact absurd (this.mp hne) (by simp)
        · intro e; exact absurd e.symm hji
    · intro j hj
      simp only [Option.some.injEq] at hj
      simp only [Mux.set, List.length_set]
      rw [← hj]; exact lt_of_get h4
    · intro j d hd
      rcases hg j d hd with ⟨rfl, rfl⟩ | ⟨hji, hd⟩
      · rw [hwr.1, hrd]; simp
      · have := h.ready j d hd
        rw [h3, h1] at this
        simp only [List.mem_cons, hji, false_or, reduceCtorEq, or_false] at this
        simp only [Option.some.injEq]
        rw [this]
        constructor
        · exact Or.inl
        · rintro (hm | e)
          · exact hm
          · exact absurd e.symm hji
    · intro j d hd
      rcases hg j d hd with ⟨rfl, rfl⟩ | ⟨hji, hd⟩
      · rw [hwr.2]; simp [hil]
      · have := h.inList j d hd
        rw [h3] at this
        simp only [List.mem_cons, hji, false_or] at this
        exact this
    · intro j hj
      simp only [Option.some.injEq] at hj
      rw [← hj]; exact hil
    · intro j hj
      simp only [Mux.set, List.length_set]
      exact h.wrIn j (by rw [h3]; exact List.mem_cons_of_mem _ hj)
    · intro hne; exact absurd hx0 hne
    · have hfr := h.frame
      rw [cur_idle h1 hx0, List.append_nil] at hfr
      rw [cur_sending (i := i) (c := c') rfl (by simp only [Mux.set]; rw [set_get h4, if_pos rfl]), h6,
        List.flatMap_append, ← hfr]
      simp [Mux.set]
    · intro y hy
      rcases List.mem_append.mp hy with hy | hy
      · exact h.logOk y hy
      · rw [List.mem_singleton.mp hy]; exact h7
  | part i n c h1 h2 h3 =>
    have ht := h.chan _ _ h2
    have hne : c.sg ≠ [] := (h.snd _ _ h2).mpr h1
    obtain ⟨a1, a2⟩ := ht.advance n h3
    have hg : ∀ j d, (m.chans.set i { c with sg := advance c.sg n })[j]? = some d →
        (j = i ∧ d = { c with sg := advance c.sg n }) ∨ (j ≠ i ∧ m.chans[j]? = some d) := by
      intro j d hd
      rw [set_get h2] at hd
      by_cases hji : j = i
      · rw [if_pos hji] at hd; exact Or.inl ⟨hji, (Option.some.inj hd).symm⟩
      · rw [if_neg hji] at hd; exact Or.inr ⟨hji, hd⟩
    refine ⟨?_, ?_, ?_, ?_, ?_, h.excl, h.nodup, ?_, h.xmit, h.xs, ?_, h.logOk⟩
    · intro j d hd
      rcases hg j d hd with ⟨rfl, rfl⟩ | ⟨hji, hd⟩
      · exact a1
      · exact h.chan j d hd
    · intro j d hd
      rcases hg j d hd with ⟨rfl, rfl⟩ | ⟨hji, hd⟩
      · simp [Mux.set, h3, h1]
      · exact h.snd j d hd
    · intro j hj
      simp only [Mux.set, List.length_set]
      exact h.sndIn j hj
    · intro j d hd
      rcases hg j d hd with ⟨rfl, rfl⟩ | ⟨hji, hd⟩
      · exact h.ready _ c h2
      · exact h.ready j d hd
    · intro j d hd
      rcases hg j d hd with ⟨rfl, rfl⟩ | ⟨hji, hd⟩
      · exact h.inList _ c h2
      · exact h.inList j d hd
    · intro j hj
      simp only [Mux.set, List.length_set]
      exact h.wrIn j hj
    · have hfr := h.frame
      rw [cur_sending h1 h2] at hfr
      have hc2 : (({ m with out := m.out ++ c.pend.take n } : Mux).set i { c with sg := advance c.sg n }).cur
          = c.pend.drop n := by
        simp only [Mux.cur, Mux.set, h1, set_get h2, if_pos]
        exact a2
      rw [hc2, ← hfr]
      simp only [Mux.set, List.append_assoc, List.take_append_drop]
  | done i c c' w h1 h2 h3 h4 =>
    have ht := h.chan _ _ h2
    have hne : c.sg ≠ [] := (h.snd _ _ h2).mpr h1
    have hil := h.excl i h1
    have hrd : c.wrReady = true := (h.ready _ _ h2).mpr (Or.inr h1)
    have hin : c.inWrlist = false := by
      cases hi : c.inWrlist with
      | false => rfl
      | true => exact absurd ((h.inList _ _ h2).mp hi) hil
    have hx0 : m.xmitPos = 0 := Decidable.byContradiction fun hx => by
      have := h.xs hx
      rw [h1] at this; cases this
    have ht' : ChanTx c' (Q i) := by
      have := (ht.done).2 c.hdr c'.wrReady c'.inWrlist
      rw [h3]; exact this
    have hsg' : c'.sg = [] := by rw [h3]
    have hg : ∀ j d, (m.chans.set i c')[j]? = some d → (j = i ∧ d = c') ∨ (j ≠ i ∧ m.chans[j]? = some d) := by
      intro j d hd
      rw [set_get h2] at hd
      by_cases hji : j = i
      · rw [if_pos hji] at hd; exact Or.inl ⟨hji, (Option.some.inj hd).symm⟩
      · rw [if_neg hji] at hd; exact Or.inr ⟨hji, hd⟩
    have hwj : ∀ j, j ≠ i → (j ∈ w ↔ j ∈ m.wrchans) := by
      intro j hji
      rcases h4 with ⟨rfl, _⟩ | ⟨rfl, _⟩
      · simp [hji]
      · rfl
    refine ⟨?_, ?_, ?_, ?_, ?_, ?_, ?_, ?_, h.xmit, ?_, ?_, h.logOk⟩
    · intro j d hd
      rcases hg j d hd with ⟨rfl, rfl⟩ | ⟨hji, hd⟩
      · exact ht'
      · exact h.chan j d hd
    · intro j d hd
      rcases hg j d hd with ⟨rfl, rfl⟩ | ⟨hji, hd⟩
      · simp [hsg']
      · have := h.snd j d hd
        rw [h1] at this
        simp only [reduceCtorEq, iff_false, Classical.not_not]
        exact Decidable.byContradiction fun hne2 => hji (Option.some.inj (this.mp hne2)).symm
    · intro j hj; cases hj
    · intro j d hd
      simp only [reduceCtorEq, or_false]
      rcases hg j d hd with ⟨rfl, rfl⟩ | ⟨hji, hd⟩
      · rcases h4 with ⟨rfl, e, _⟩ | ⟨rfl, e, _⟩
        · simp [e, hrd]
        · simp [e, hil]
      · have := h.ready j d hd
        rw [h1] at this
        rw [hwj j hji, this]
        simp only [Option.some.injEq, Ne.symm hji, or_false]
    · intro j d hd
      rcases hg j d hd with ⟨rfl, rfl⟩ | ⟨hji, hd⟩
      · rcases h4 with ⟨rfl, _, e⟩ | ⟨rfl, _, e⟩
        · simp [e]
        · simp [e, hil, hin]
      · rw [hwj j hji]; exact h.inList j d hd
    · intro j hj; cases hj
    · rcases h4 with ⟨rfl, _⟩ | ⟨rfl, _⟩
      · refine List.nodup_append.mpr ⟨h.nodup, by simp, ?_⟩
        intro a ha b hb
        rw [List.mem_singleton.mp hb]
        exact fun e => hil (e ▸ ha)
      · exact h.nodup
    · intro j hj
      simp only [Mux.set, List.length_set]
      by_cases hji : j = i
      · rw [hji]; exact lt_of_get h2
      · exact h.wrIn j ((hwj j hji).mp hj)
    · intro _; rfl
    · have hfr := h.frame
      rw [cur_sending h1 h2] at hfr
      have hc2 : ({ m.set i c' with out := m.out ++ c.pend, sending := none, wrchans := w } : Mux).cur = [] := by
        simp only [Mux.cur, Mux.set, hx0, if_pos]
      rw [hc2, List.append_nil]
      exact hfr
  | xmit n x h1 h2 h3 h4 h5 =>
    have hfr := h.frame
    have hsend : (m.sendXmit n).sending = none := by rw [Mux.sendXmit]; split <;> exact h1
    have hch : (m.sendXmit n).chans = m.chans := by rw [Mux.sendXmit]; split <;> rfl
    have hwr : (m.sendXmit n).wrchans = m.wrchans := by rw [Mux.sendXmit]; split <;> rfl
    refine ⟨?_, ?_, ?_, ?_, ?_, ?_, ?_, ?_, ?_, ?_, ?_, ?_⟩
    · rw [hch]; exact h.chan
    · rw [hch, hsend, ← h1]; exact h.snd
    · rw [hsend]; intro j hj; cases hj
    · rw [hch, hwr, hsend, ← h1]; exact h.ready
    · rw [hch, hwr]; exact h.inList
    · rw [hsend]; intro j hj; cases hj
    · rw [hwr]; exact h.nodup
    · rw [hch, hwr]; exact h.wrIn
    · rw [Mux.sendXmit]
      by_cases hn : n ≥ (m.xmit.drop m.xmitPos).length
      · rw [if_pos hn]; exact Or.inl ⟨rfl, rfl⟩
      · rw [if_neg hn]
        rw [List.length_drop] at hn
        exact Or.inr ⟨x, h3, h2, by simp only; omega⟩
    · intro _; exact hsend
    · have hout : (m.sendXmit n).out ++ (m.sendXmit n).cur
          = m.out ++ (if m.xmitPos = 0 ∧ n = 0 then [] else m.xmit.drop m.xmitPos) := by
        by_cases hn : n ≥ (m.xmit.drop m.xmitPos).length
        · have e : m.sendXmit n = { m with out := m.out ++ m.xmit.drop m.xmitPos, xmit := [], xmitPos := 0 } := by
            rw [Mux.sendXmit, if_pos hn]
          rw [e]
          simp only [Mux.cur, h1, if_pos, List.append_nil]
          rw [if_neg]
          rw [List.length_drop] at hn
          omega
        · have e : m.sendXmit n
              = { m with out := m.out ++ (m.xmit.drop m.xmitPos).take n, xmitPos := m.xmitPos + n } := by
            rw [Mux.sendXmit, if_neg hn]
          rw [e]
          by_cases h0 : m.xmitPos = 0 ∧ n = 0
          · rw [if_pos h0]
            simp [Mux.cur, h1, h0.1, h0.2]
          · simp only [Mux.cur, h1]
            rw [if_neg h0, if_neg (by omega), List.append_assoc]
            rw [← List.drop_drop, List.take_append_drop]
      rw [hout]
      rcases h5 with ⟨rfl, hc⟩ | ⟨rfl, hc, hn⟩
      · rw [← hfr]
        by_cases hx : m.xmitPos = 0
        · rw [cur_idle h1 hx, if_pos (by omega)]
        · rw [cur_xmit h1 hx, if_neg (by omega)]
      · rw [if_neg (by omega), List.flatMap_append, ← hfr, cur_idle h1 hc, List.append_nil, hc, List.drop_zero, h2]
        simp
    · intro y hy
      rcases h5 with ⟨rfl, _⟩ | ⟨rfl, _⟩
      · exact h.logOk y hy
      · rcases List.mem_append.mp hy with hy | hy
        · exact h.logOk y hy
        · rw [List.mem_singleton.mp hy]; exact h3

theorem MInv.steps {a b : TxSt} (hs : TxSteps a b) (h : MInv a.1 a.2.1 a.2.2) : MInv b.1 b.2.1 b.2.2 := by
  induction hs with
  | refl => exact h
  | tail _ s ih => exact ih.step s

end Gensio.Mux
