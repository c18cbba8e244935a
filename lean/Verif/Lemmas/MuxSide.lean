import Verif.Lemmas.MuxRx

/-!
# One end of an established mux session
-/

namespace Gensio.Mux

/-- A `DATA` message: channel number of the receiver, acknowledgement, flags and data. -/
structure Dat where
  r : Nat
  a : Nat
  f : UInt8
  d : List UInt8

def Dat.msg (y : Dat) : Msg := .data y.r y.a y.f y.d

theorem Dat.len (y : Dat) : y.msg.bytes.length = 10 + y.d.length := by
  simp [Dat.msg, Msg.bytes, be16, be32]; omega

/-- The messages with data for a channel. -/
def fr (r : Nat) (l : List Dat) : List Frame := l.flatMap (fun y => if y.r = r ∧ y.d ≠ [] then [(y.f, y.d)] else [])
/-- The acknowledgements for a channel. -/
def asum (r : Nat) (l : List Dat) : Nat := (l.map (fun y => if y.r = r then y.a else 0)).sum
/-- The buffer space the messages for a channel need. -/
def dsum (r : Nat) (l : List Dat) : Nat := (l.map (fun y => if y.r = r ∧ y.d ≠ [] then y.d.length + 3 else 0)).sum

theorem fr_snoc (r : Nat) (l : List Dat) (y : Dat) :
    fr r (l ++ [y]) = fr r l ++ (if y.r = r ∧ y.d ≠ [] then [(y.f, y.d)] else []) := by simp [fr]
theorem asum_snoc (r : Nat) (l : List Dat) (y : Dat) : asum r (l ++ [y]) = asum r l + (if y.r = r then y.a else 0) := by
  simp [asum]
theorem dsum_snoc (r : Nat) (l : List Dat) (y : Dat) :
    dsum r (l ++ [y]) = dsum r l + (if y.r = r ∧ y.d ≠ [] then y.d.length + 3 else 0) := by simp [dsum]

/-- The part of the message `x` that is in the read buffer of channel `id` when `k` bytes of `x` arrived. -/
def part (id : Nat) (x : Dat) (k : Nat) : List UInt8 :=
  if x.r = id ∧ 10 ≤ k then x.f :: (be16 x.d.length ++ x.d.take (k - 10)) else []

/-- The rest of `x`, for which there must be space. -/
def rest (id : Nat) (x : Dat) (k : Nat) : Nat := if x.r = id ∧ 10 ≤ k then x.d.length - (k - 10) else 0

/-- The messages of which the header arrived. -/
def hin (inn : List Dat) (x : Dat) (k : Nat) : List Dat := if 8 ≤ k then inn ++ [x] else inn

/-- A channel of an established session.  `log` was sent by the mux and `inn` received, with `k` bytes of `x`; `q` waits
to be sent and `r` to be delivered; `s` and `u` are the bytes not acknowledged at the start. -/
structure ChanSide (c : Chan) (log : List Dat) (q : List Frame) (inn : List Dat) (x : Dat) (k : Nat) (r : List Frame)
    (s u maxRead : Nat) : Prop where
  st : c.state = .opened
  err : c.err = 0
  sendNew : c.sendNew = false
  sendClose : c.sendClose = false
  closeSent : c.closeSent = false
  id : c.id < 65536
  acc : c.acc = fr c.remoteId log ++ q
  sent : c.sentUnacked + asum c.id (hin inn x k) = dsum c.remoteId log + s
  win : c.sentUnacked ≤ c.window
  ring : Holds c.rd (r.flatMap enc ++ part c.id x k)
  rok : ∀ f ∈ r, FrameOk f
  oob : ∀ f ∈ r, oobFlag f.1 = true → c.doOob = true
  recv : c.rd.len + c.recvUnacked + asum c.remoteId log = dsum c.id inn + (part c.id x k).length + u
  room : c.rd.len + c.recvUnacked + rest c.id x k ≤ maxRead
  size : c.rd.data.length = maxRead
  calls : c.calls.flatMap callItems ++ r.flatMap items = (fr c.id inn).flatMap items

/-- The state of the receiver when `k` bytes of the message `x` arrived. -/
structure Parse (m : Mux) (x : Dat) (k : Nat) : Prop where
  zero : k = 0 → m.inHdr = true ∧ m.hdrPos = 0
  head : 0 < k → k < 8 → m.inHdr = true ∧ m.hdrPos = k ∧ m.hdrSize = 8 ∧ m.msgid = 5 ∧ m.hdr.take k = x.msg.bytes.take k
  body : 8 ≤ k → m.inHdr = false ∧ m.msgid = 5 ∧ m.hdrPos = 0 ∧ m.hdr.getD 1 0 = x.f
    ∧ ∃ i c, m.curr = some i ∧ m.chans[i]? = some c ∧ c.id = x.r
  eight : k = 8 → m.dataPos = 0
  nine : k = 9 → m.dataPos = 1 ∧ m.dataSize = x.d.length / 256 * 256
  ten : 10 ≤ k → m.dataPos = k - 8 ∧ m.dataSize = x.d.length

/-- What does not change during a session: the number of channels, the size of the read buffers, the numbers and windows
of the channels, what was not acknowledged at the start, and where out of band data may be received and sent. -/
structure Par where
  n : Nat
  mr : Nat
  id : Nat → Nat
  rid : Nat → Nat
  win : Nat → Nat
  s : Nat → Nat
  u : Nat → Nat
  oob : Nat → Bool
  po : Nat → Bool

structure Stat (c : Chan) (P : Par) (i : Nat) : Prop where
  id : c.id = P.id i
  rid : c.remoteId = P.rid i
  win : c.window = P.win i
  oob : P.oob i = true → c.doOob = true
  acc : ∀ f ∈ c.acc, oobFlag f.1 = true → P.po i = true

/-- What holds for one end of an established session, besides the sending side. -/
structure Rest (m : Mux) (log : List Dat) (Q : Nat → List Frame) (inn : List Dat) (x : Dat) (k : Nat)
    (R : Nat → List Frame) (P : Par) : Prop where
  xm : m.xmit = []
  count : m.chans.length = P.n
  par : m.maxRead = P.mr
  stat : ∀ (i : Nat) (c : Chan), m.chans[i]? = some c → Stat c P i
  hdr : m.hdr.length = 12
  wsize : ∀ (i : Nat) (c : Chan), m.chans[i]? = some c → c.wr.data.length = m.maxWrite
  mw : m.maxWrite ≤ 65538
  mr : m.maxRead < 4294967296
  find : ∀ (i : Nat) (c : Chan), m.chans[i]? = some c → m.find c.id = some i
  rids : ∀ (i j : Nat) (c d : Chan), m.chans[i]? = some c → m.chans[j]? = some d → c.remoteId = d.remoteId → i = j
  chan : ∀ (i : Nat) (c : Chan), m.chans[i]? = some c → ChanSide c log (Q i) inn x k (R i) (P.s i) (P.u i) m.maxRead
  logC : ∀ y ∈ log, (∃ (i : Nat) (c : Chan), m.chans[i]? = some c ∧ y.r = c.remoteId) ∧ y.a < 4294967296
    ∧ y.d.length < 65536
  kx : k < 10 + x.d.length
  xOk : 0 < k → (∃ (i : Nat) (c : Chan), m.chans[i]? = some c ∧ c.id = x.r) ∧ x.a < 4294967296 ∧ x.d.length < 65536
  parse : Parse m x k

/-- One end of an established session. -/
structure Side (m : Mux) (log : List Dat) (Q : Nat → List Frame) (inn : List Dat) (x : Dat) (k : Nat)
    (R : Nat → List Frame) (P : Par) : Prop where
  tx : MInv m (log.map Dat.msg) Q
  svc : SvcOk m
  rest : Rest m log Q inn x k R P

theorem find_set {m : Mux} {i : Nat} {c c' : Chan} (hc : m.chans[i]? = some c) (h1 : c'.id = c.id)
    (h2 : c'.linked = c.linked) (id : Nat) : (m.set i c').find id = m.find id := by
  simp only [Mux.find, Mux.set]
  have hl : m.chans.set i c' = m.chans.mapIdx (fun j d => if j = i then c' else d) := by
    apply List.ext_getElem?
    intro j
    rw [set_get hc, List.getElem?_mapIdx]
    by_cases hj : j = i
    · subst hj; simp [hc]
    · simp only [if_neg hj]
      cases m.chans[j]? <;> simp [hj]
  have key : ∀ (l l' : List Chan) (p : Chan → Bool), l.map p = l'.map p → l.findIdx? p = l'.findIdx? p := by
    intro l l' p hp
    have : ∀ (l : List Chan), l.findIdx? p = (l.map p).findIdx? (fun b => b) := by
      intro l
      induction l with
      | nil => rfl
      | cons a l ih => simp only [List.map_cons, List.findIdx?_cons, ih]
    rw [this l, this l', hp]
  apply key
  apply List.ext_getElem?
  intro j
  rw [List.getElem?_map, List.getElem?_map, set_get hc]
  by_cases hj : j = i
  · subst hj; simp [hc, h1, h2]
  · rw [if_neg hj]

theorem ids_ne {m : Mux} {log : List Dat} {Q : Nat → List Frame} {inn : List Dat} {x : Dat} {k : Nat}
    {R : Nat → List Frame} {P : Par} (h : Rest m log Q inn x k R P) {i j : Nat} {c d : Chan}
    (hc : m.chans[i]? = some c) (hd : m.chans[j]? = some d) (hij : i ≠ j) : c.id ≠ d.id := by
  intro e
  have h1 := h.find i c hc
  have h2 := h.find j d hd
  rw [e, h2] at h1
  exact hij (Option.some.inj h1).symm

theorem Stat.congr {c c' : Chan} {P : Par} {i : Nat} (h : Stat c P i) (h1 : c'.id = c.id) (h2 : c'.remoteId = c.remoteId)
    (h3 : c'.window = c.window) (h4 : c.doOob = true → c'.doOob = true) (h5 : c'.acc = c.acc) : Stat c' P i :=
  ⟨by rw [h1]; exact h.id, by rw [h2]; exact h.rid, by rw [h3]; exact h.win, fun e => h4 (h.oob e),
    by rw [h5]; exact h.acc⟩

/-- Changing one channel. -/
theorem Rest.set {m : Mux} {log : List Dat} {Q : Nat → List Frame} {inn : List Dat} {x : Dat} {k : Nat}
    {R : Nat → List Frame} {P : Par} (h : Rest m log Q inn x k R P) {i : Nat} {c c' : Chan}
    (hc : m.chans[i]? = some c) {q' r' : List Frame} (h1 : c'.id = c.id) (h2 : c'.linked = c.linked)
    (h3 : c'.remoteId = c.remoteId) (h4 : c'.wr.data.length = c.wr.data.length)
    (h5 : Stat c' P i) (hs : ChanSide c' log q' inn x k r' (P.s i) (P.u i) m.maxRead) :
    Rest (m.set i c') log (upd Q i q') inn x k (upd R i r') P := by
  have hg : ∀ j d, (m.set i c').chans[j]? = some d → (j = i ∧ d = c') ∨ (j ≠ i ∧ m.chans[j]? = some d) := by
    intro j d hd
    simp only [Mux.set, set_get hc] at hd
    by_cases hji : j = i
    · rw [if_pos hji] at hd; exact Or.inl ⟨hji, (Option.some.inj hd).symm⟩
    · rw [if_neg hji] at hd; exact Or.inr ⟨hji, hd⟩
  have hex : ∀ (j : Nat) (d : Chan), m.chans[j]? = some d → ∃ d', (m.set i c').chans[j]? = some d' ∧ d'.id = d.id
      ∧ d'.remoteId = d.remoteId := by
    intro j d hd
    simp only [Mux.set, set_get hc]
    by_cases hji : j = i
    · subst hji
      rw [hc] at hd
      have := Option.some.inj hd
      subst this
      exact ⟨c', if_pos rfl, h1, h3⟩
    · exact ⟨d, by rw [if_neg hji]; exact hd, rfl, rfl⟩
  refine ⟨h.xm, by simp only [Mux.set, List.length_set]; exact h.count, h.par, ?_, h.hdr, ?_, h.mw, h.mr, ?_, ?_, ?_, ?_,
    h.kx, ?_, ?_⟩
  · intro j d hd
    rcases hg j d hd with ⟨rfl, rfl⟩ | ⟨hji, hd⟩
    · exact h5
    · exact h.stat j d hd
  · intro j d hd
    rcases hg j d hd with ⟨rfl, rfl⟩ | ⟨hji, hd⟩
    · rw [h4]; exact h.wsize _ _ hc
    · exact h.wsize j d hd
  · intro j d hd
    rw [find_set hc h1 h2]
    rcases hg j d hd with ⟨rfl, rfl⟩ | ⟨hji, hd⟩
    · rw [h1]; exact h.find _ _ hc
    · exact h.find j d hd
  · intro a b d e hd he hr
    rcases hg a d hd with ⟨ha, hd1⟩ | ⟨ha, hd1⟩ <;> rcases hg b e he with ⟨hb, he1⟩ | ⟨hb, he1⟩
    · rw [ha, hb]
    · rw [ha]; exact h.rids _ _ _ _ hc he1 (by rw [← h3, ← hd1]; exact hr)
    · rw [hb]; exact h.rids _ _ _ _ hd1 hc (by rw [← h3, ← he1]; exact hr)
    · exact h.rids _ _ _ _ hd1 he1 hr
  · intro j d hd
    rcases hg j d hd with ⟨rfl, rfl⟩ | ⟨hji, hd⟩
    · rw [upd_same, upd_same]; exact hs
    · rw [upd_other _ _ hji, upd_other _ _ hji]; exact h.chan j d hd
  · intro y hy
    obtain ⟨⟨j, d, hd, hr⟩, h5⟩ := h.logC y hy
    obtain ⟨d', hd', -, h6⟩ := hex j d hd
    exact ⟨⟨j, d', hd', by rw [h6]; exact hr⟩, h5⟩
  · intro hk
    obtain ⟨⟨j, d, hd, hr⟩, h5⟩ := h.xOk hk
    obtain ⟨d', hd', h6, -⟩ := hex j d hd
    exact ⟨⟨j, d', hd', by rw [h6]; exact hr⟩, h5⟩
  · refine ⟨h.parse.zero, h.parse.head, fun hk => ?_, h.parse.eight, h.parse.nine, h.parse.ten⟩
    obtain ⟨p1, p2, p3, p4, j, d, hj, hd, hr⟩ := h.parse.body hk
    obtain ⟨d', hd', h6, -⟩ := hex j d hd
    exact ⟨p1, p2, p3, p4, j, d', hj, hd', by rw [h6]; exact hr⟩

theorem Rest.set0 {m : Mux} {log : List Dat} {Q : Nat → List Frame} {inn : List Dat} {x : Dat} {k : Nat}
    {R : Nat → List Frame} {P : Par} (h : Rest m log Q inn x k R P) {i : Nat} {c c' : Chan}
    (hc : m.chans[i]? = some c) (h1 : c'.id = c.id) (h2 : c'.linked = c.linked)
    (h3 : c'.remoteId = c.remoteId) (h4 : c'.wr.data.length = c.wr.data.length)
    (h5 : Stat c' P i) (hs : ChanSide c' log (Q i) inn x k (R i) (P.s i) (P.u i) m.maxRead) :
    Rest (m.set i c') log Q inn x k R P := by
  have := h.set hc h1 h2 h3 h4 h5 hs
  rwa [upd_self, upd_self] at this

theorem Rest.congr {m m' : Mux} {log : List Dat} {Q : Nat → List Frame} {inn : List Dat} {x : Dat} {k : Nat}
    {R : Nat → List Frame} {P : Par} (h : Rest m log Q inn x k R P) (h1 : m'.chans = m.chans)
    (h2 : m'.xmit = m.xmit) (hs : RxSame m m') : Rest m' log Q inn x k R P := by
  refine ⟨by rw [h2]; exact h.xm, by rw [h1]; exact h.count, by rw [hs.maxRead]; exact h.par, by rw [h1]; exact h.stat,
    by rw [hs.hdr]; exact h.hdr, by rw [h1, hs.maxWrite]; exact h.wsize,
    by rw [hs.maxWrite]; exact h.mw, by rw [hs.maxRead]; exact h.mr, ?_, by rw [h1]; exact h.rids,
    by rw [h1, hs.maxRead]; exact h.chan, by rw [h1]; exact h.logC, h.kx, by rw [h1]; exact h.xOk, ?_⟩
  · simp only [Mux.find, h1]; exact h.find
  · refine ⟨?_, ?_, ?_, ?_, ?_, ?_⟩
    · rw [hs.inHdr, hs.hdrPos]; exact h.parse.zero
    · rw [hs.inHdr, hs.hdrPos, hs.hdrSize, hs.msgid, hs.hdr]; exact h.parse.head
    · rw [hs.inHdr, hs.hdrPos, hs.msgid, hs.hdr, hs.curr, h1]; exact h.parse.body
    · rw [hs.dataPos]; exact h.parse.eight
    · rw [hs.dataPos, hs.dataSize]; exact h.parse.nine
    · rw [hs.dataPos, hs.dataSize]; exact h.parse.ten

/-- Only these parts of a channel matter for its session. -/
theorem ChanSide.congr {c c' : Chan} {log : List Dat} {q : List Frame} {inn : List Dat} {x : Dat} {k : Nat}
    {r : List Frame} {s u maxRead : Nat} (h : ChanSide c log q inn x k r s u maxRead)
    (e : c' = { c with service := c'.service, readEnabled := c'.readEnabled, wr := c'.wr, hdr := c'.hdr, sg := c'.sg
                       curLen := c'.curLen, closeCalled := c'.closeCalled, wrReady := c'.wrReady
                       inWrlist := c'.inWrlist, inOpenChan := c'.inOpenChan, rcv := c'.rcv }) :
    ChanSide c' log q inn x k r s u maxRead := by
  rw [e]
  exact ⟨h.st, h.err, h.sendNew, h.sendClose, h.closeSent, h.id, h.acc, h.sent, h.win, h.ring, h.rok, h.oob, h.recv,
    h.room, h.size, h.calls⟩

/-! ## The calls of the user -/

theorem Side.addWr {m : Mux} {log : List Dat} {Q : Nat → List Frame} {inn : List Dat} {x : Dat} {k : Nat}
    {R : Nat → List Frame} {P : Par} (h : Side m log Q inn x k R P) {i : Nat} {c : Chan}
    (hc : m.chans[i]? = some c) :
    ∃ m', m.addWr i = some m' ∧ Side m' log Q inn x k R P ∧ m'.state = m.state ∧ m'.out = m.out := by
  obtain ⟨m', e, h1, ⟨⟨d, d', g1, g2, g3⟩, ⟨w, b, g4⟩⟩⟩ := h.tx.addWr hc
  refine ⟨m', e, ⟨h1, h.svc.addWr e, ?_⟩, by rw [g4], by rw [g4]⟩
  rw [hc] at g1
  have := Option.some.inj g1
  subst this
  have h2 := h.rest.set0 (c' := d') hc (by rw [g3]) (by rw [g3]) (by rw [g3]) (by rw [g3])
    ((h.rest.stat _ _ hc).congr (by rw [g3]) (by rw [g3]) (by rw [g3]) (by rw [g3]; exact fun h => h) (by rw [g3]))
    ((h.rest.chan i c hc).congr (by rw [g3]))
  refine h2.congr (by rw [g2]; rfl) (by rw [g4]; rfl) ?_
  have := RxSame.addWr e
  exact ⟨this.1, this.2, this.3, this.4, this.5, this.6, this.7, this.8, this.9, this.10⟩

theorem Side.set {m : Mux} {log : List Dat} {Q : Nat → List Frame} {inn : List Dat} {x : Dat} {k : Nat}
    {R : Nat → List Frame} {P : Par} (h : Side m log Q inn x k R P) {i : Nat} {c c' : Chan}
    (hc : m.chans[i]? = some c)
    (ho : c.doOob = true → c'.doOob = true)
    (e : c' = { c with readEnabled := c'.readEnabled, doOob := c'.doOob, rd := c'.rd, recvUnacked := c'.recvUnacked
                       sentUnacked := c'.sentUnacked, rcv := c'.rcv, calls := c'.calls }) {r' : List Frame}
    (hs : ChanSide c' log (Q i) inn x k r' (P.s i) (P.u i) m.maxRead) :
    Side (m.set i c') log Q inn x k (upd R i r') P := by
  refine ⟨?_, ?_, ?_⟩
  · refine h.tx.set' hc ?_ ?_ ?_ ?_ (Or.inl ?_) ?_ ?_ <;> rw [e]
  · exact h.svc.set hc (by rw [e]; exact h.svc i c hc)
  · have := h.rest.set (c' := c') (q' := Q i) hc (by rw [e]) (by rw [e]) (by rw [e]) (by rw [e])
      ((h.rest.stat _ _ hc).congr (by rw [e]) (by rw [e]) (by rw [e]) ho (by rw [e])) hs
    rwa [upd_self] at this

/-- What an incomplete message in the read buffer looks like. -/
theorem Rest.partOk {m : Mux} {log : List Dat} {Q : Nat → List Frame} {inn : List Dat} {x : Dat} {k : Nat}
    {R : Nat → List Frame} {P : Par} (h : Rest m log Q inn x k R P) (id : Nat) : PartOk (part id x k) := by
  unfold part
  split
  · rename_i hk
    have h1 := h.xOk (by omega)
    have h2 := h.kx
    refine Or.inr ⟨x.f, x.d.length, _, rfl, h1.2.2, ?_⟩
    rw [List.length_take]
    omega
  · exact Or.inl rfl

theorem ChanSide.deliver {c c' : Chan} {log : List Dat} {q : List Frame} {inn : List Dat} {x : Dat} {k : Nat}
    {r r' : List Frame} {s u maxRead : Nat} (h : ChanSide c log q inn x k r s u maxRead)
    (hd : Deliver c c' r r' (part c.id x k)) : ChanSide c' log q inn x k r' s u maxRead := by
  obtain ⟨cs, e1, e2⟩ := hd.calls
  have e := hd.same
  have hid : c'.id = c.id := by rw [e]
  have hri : c'.remoteId = c.remoteId := by rw [e]
  refine ⟨by rw [e]; exact h.st, by rw [e]; exact h.err, by rw [e]; exact h.sendNew, by rw [e]; exact h.sendClose,
    by rw [e]; exact h.closeSent, by rw [e]; exact h.id, by rw [e]; exact h.acc, by rw [e]; exact h.sent,
    by rw [e]; exact h.win, by rw [hid]; exact hd.ring, hd.ok, hd.marks h.oob, ?_, ?_, by rw [hd.size]; exact h.size, ?_⟩
  · rw [hd.tot, hid, hri]; exact h.recv
  · rw [hd.tot, hid]; exact h.room
  · rw [e1, List.flatMap_append, List.append_assoc, e2, hid]; exact h.calls

theorem Side.checkRead {m : Mux} {log : List Dat} {Q : Nat → List Frame} {inn : List Dat} {x : Dat} {k : Nat}
    {R : Nat → List Frame} {P : Par} (h : Side m log Q inn x k R P) {i : Nat} {c : Chan}
    (hc : m.chans[i]? = some c) (ans : List Ans) :
    ∃ m' r', m.checkRead i ans = some m' ∧ Side m' log Q inn x k (upd R i r') P ∧ m'.state = m.state
      ∧ m'.out = m.out := by
  have hs := h.rest.chan i c hc
  obtain ⟨c', r', e, hd⟩ := readLoop_spec (ans.length + 2) c (R i) (part c.id x k) ans hs.ring hs.rok (h.rest.partOk c.id)
    hs.err hs.oob
  rw [Mux.checkRead]
  simp only [hc, e]
  have h1 := h.set hc (c' := c') (r' := r') (by rw [hd.same]; exact fun h => h) (by rw [hd.same]) (hs.deliver hd)
  split
  · obtain ⟨m', e2, h2, h3, h4⟩ := h1.addWr (i := i) (c := c')
      (by simp only [Mux.set]; rw [set_get hc, if_pos rfl])
    exact ⟨m', r', e2, h2, h3, h4⟩
  · exact ⟨_, r', rfl, h1, rfl, rfl⟩

theorem Side.deferred {m : Mux} {log : List Dat} {Q : Nat → List Frame} {inn : List Dat} {x : Dat} {k : Nat}
    {R : Nat → List Frame} {P : Par} (h : Side m log Q inn x k R P) {i : Nat} {c : Chan}
    (hc : m.chans[i]? = some c) (ans : List Ans) :
    ∃ m' R', m.deferred i ans = some m' ∧ Side m' log Q inn x k R' P ∧ m'.state = m.state ∧ m'.out = m.out := by
  obtain ⟨m', r', e, h1, h2, h3⟩ := h.checkRead hc ans
  rw [Mux.deferred]
  simp only [e]
  have hin : ∃ c', m'.chans[i]? = some c' := by
    rw [Mux.checkRead] at e
    simp only [hc] at e
    split at e
    · cases e
    · rename_i c1 _
      split at e
      · rw [Mux.addWr] at e
        simp only [Mux.set] at e
        rw [set_get hc, if_pos rfl] at e
        simp only at e
        split at e
        · rw [← Option.some.inj e]
          exact ⟨c1, by simp only; rw [set_get hc, if_pos rfl]⟩
        · split at e
          · cases e
          · rw [← Option.some.inj e]
            exact ⟨_, by simp only [List.set_set]; rw [set_get hc, if_pos rfl]⟩
      · rw [← Option.some.inj e]
        exact ⟨c1, by simp only [Mux.set]; rw [set_get hc, if_pos rfl]⟩
  obtain ⟨c', hc'⟩ := hin
  simp only [hc']
  rw [if_neg]
  · exact ⟨m', _, rfl, h1, h2, h3⟩
  · rintro ⟨-, hst⟩
    rw [(h1.rest.chan i c' hc').st] at hst
    cases hst

theorem Side.readEnable {m : Mux} {log : List Dat} {Q : Nat → List Frame} {inn : List Dat} {x : Dat} {k : Nat}
    {R : Nat → List Frame} {P : Par} (h : Side m log Q inn x k R P) {i : Nat} {c : Chan}
    (hc : m.chans[i]? = some c) (en : Bool) :
    ∃ m', m.readEnable i en = some m' ∧ Side m' log Q inn x k R P ∧ m'.state = m.state ∧ m'.out = m.out := by
  rw [Mux.readEnable]
  simp only [hc]
  have := h.set hc (c' := { c with readEnabled := en }) (r' := R i) (fun h => h) rfl ((h.rest.chan i c hc).congr rfl)
  rw [upd_self] at this
  exact ⟨_, rfl, this, rfl, rfl⟩

theorem Side.setOob {m : Mux} {log : List Dat} {Q : Nat → List Frame} {inn : List Dat} {x : Dat} {k : Nat}
    {R : Nat → List Frame} {P : Par} (h : Side m log Q inn x k R P) {i : Nat} {c : Chan}
    (hc : m.chans[i]? = some c) :
    ∃ m', m.setOob i true = some m' ∧ Side m' log Q inn x k R P ∧ m'.state = m.state ∧ m'.out = m.out := by
  rw [Mux.setOob]
  simp only [hc]
  have hs := h.rest.chan i c hc
  have := h.set hc (c' := { c with doOob := true }) (r' := R i) (fun _ => rfl) rfl
    ⟨hs.st, hs.err, hs.sendNew, hs.sendClose, hs.closeSent, hs.id, hs.acc, hs.sent, hs.win, hs.ring, hs.rok,
      fun _ _ _ => rfl, hs.recv, hs.room, hs.size, hs.calls⟩
  rw [upd_self] at this
  exact ⟨_, rfl, this, rfl, rfl⟩

theorem oobFlag_mk (a b : Bool) : oobFlag (mkFlags a b) = b := by
  cases a <;> cases b <;> decide

theorem Side.write {m : Mux} {log : List Dat} {Q : Nat → List Frame} {inn : List Dat} {x : Dat} {k : Nat}
    {R : Nat → List Frame} {P : Par} (h : Side m log Q inn x k R P) {i : Nat} {c : Chan}
    (hc : m.chans[i]? = some c) (sg : List (List UInt8)) (eom oob : Bool)
    (ho : oob = true → P.po i = true) :
    ∃ m' r q, m.write i sg eom oob = some (m', r) ∧ Side m' log (upd Q i q) inn x k R P ∧ m'.state = m.state
      ∧ m'.out = m.out ∧ ((m' = m ∧ q = Q i) ∨ ∃ n c', 0 < n ∧ m'.chans = m.chans.set i c'
        ∧ c' = { c with wr := c'.wr, acc := c'.acc, wrReady := c'.wrReady, inWrlist := c'.inWrlist }
        ∧ c'.acc = c.acc ++ [(mkFlags (decide (n = sg.flatten.length) && eom) oob, sg.flatten.take n)]) := by
  obtain ⟨m', r, e, hh⟩ := write_spec h.tx hc (by rw [h.rest.wsize i c hc]; exact h.rest.mw) sg eom oob
  rcases hh with ⟨rfl, -⟩ | ⟨n, f, c', e1, e2, -, -, -, rfl, -, k1, k2, k3, ⟨w, b, k4⟩, k5⟩
  · exact ⟨m', r, Q i, e, by rw [upd_self]; exact h, rfl, rfl, Or.inl ⟨rfl, rfl⟩⟩
  · refine ⟨m', r, _, e, ⟨k5, ?_, ?_⟩, by rw [k4], by rw [k4], Or.inr ⟨n, c', e2, k3, by rw [k1], by rw [k1]⟩⟩
    · intro j d hd
      rw [k3, set_get hc] at hd
      split at hd
      · rw [← Option.some.inj hd, k1]; exact h.svc i c hc
      · exact h.svc j d hd
    · have hs := h.rest.chan i c hc
      have hcs : ChanSide c' log (Q i ++ [(mkFlags (decide (n = sg.flatten.length) && eom) oob, sg.flatten.take n)]) inn x k
          (R i) (P.s i) (P.u i) m.maxRead := by
        rw [k1]
        exact ⟨hs.st, hs.err, hs.sendNew, hs.sendClose, hs.closeSent, hs.id, by simp only; rw [hs.acc, List.append_assoc],
          hs.sent, hs.win, hs.ring, hs.rok, hs.oob, hs.recv, hs.room, hs.size, hs.calls⟩
      have := h.rest.set (c' := c') hc (by rw [k1]) (by rw [k1]) (by rw [k1]) k2
        ⟨by rw [k1]; exact (h.rest.stat _ _ hc).id, by rw [k1]; exact (h.rest.stat _ _ hc).rid,
          by rw [k1]; exact (h.rest.stat _ _ hc).win, by rw [k1]; exact (h.rest.stat _ _ hc).oob, by
            rw [k1]
            intro f hf hof
            rcases List.mem_append.mp hf with hf | hf
            · exact (h.rest.stat _ _ hc).acc f hf hof
            · rw [List.mem_singleton.mp hf] at hof
              exact ho (by rwa [oobFlag_mk] at hof)⟩ hcs
      rw [upd_self] at this
      refine this.congr (by rw [k3]; rfl) (by rw [k4]; rfl) ?_
      rw [k4]
      exact ⟨rfl, rfl, rfl, rfl, rfl, rfl, rfl, rfl, rfl, rfl⟩

/-! ## Sending -/

theorem fr_other {r : Nat} {l : List Dat} {y : Dat} (h : y.r ≠ r) : fr r (l ++ [y]) = fr r l := by
  rw [fr_snoc, if_neg (fun e => h e.1), List.append_nil]
theorem asum_other {r : Nat} {l : List Dat} {y : Dat} (h : y.r ≠ r) : asum r (l ++ [y]) = asum r l := by
  rw [asum_snoc, if_neg h, Nat.add_zero]
theorem dsum_other {r : Nat} {l : List Dat} {y : Dat} (h : y.r ≠ r) : dsum r (l ++ [y]) = dsum r l := by
  rw [dsum_snoc, if_neg (fun e => h e.1), Nat.add_zero]

/-- Sending on another channel. -/
theorem ChanSide.logOther {c : Chan} {log : List Dat} {q : List Frame} {inn : List Dat} {x : Dat} {k : Nat}
    {r : List Frame} {s u maxRead : Nat} (h : ChanSide c log q inn x k r s u maxRead) {y : Dat} (hy : y.r ≠ c.remoteId) :
    ChanSide c (log ++ [y]) q inn x k r s u maxRead := by
  refine ⟨h.st, h.err, h.sendNew, h.sendClose, h.closeSent, h.id, ?_, ?_, h.win, h.ring, h.rok, h.oob, ?_, h.room, h.size,
    h.calls⟩
  · rw [fr_other hy]; exact h.acc
  · rw [dsum_other hy]; exact h.sent
  · rw [asum_other hy]; exact h.recv

/-- Starting a message on a channel. -/
theorem ChanSide.start {c c' : Chan} {log : List Dat} {q q' : List Frame} {inn : List Dat} {x : Dat} {k : Nat}
    {r : List Frame} {s u maxRead : Nat} {z : Msg} (h : ChanSide c log q inn x k r s u maxRead) (hq : ∀ f ∈ q, FrameOk f)
    (hs : Start c q c' q' z) : ∃ y : Dat, z = y.msg ∧ y.r = c.remoteId ∧ y.a = c.recvUnacked ∧ y.d.length < 65536
      ∧ ChanSide c' (log ++ [y]) q' inn x k r s u maxRead
      ∧ c' = { c with inWrlist := false, hdr := c'.hdr, sg := c'.sg, wr := c'.wr, curLen := c'.curLen
                      recvUnacked := 0, sentUnacked := c'.sentUnacked }
      ∧ c'.wr.data = c.wr.data := by
  cases hs with
  | newChan h1 _ => rw [h.sendNew] at h1; cases h1
  | close _ h1 _ _ => rw [h.sendClose] at h1; cases h1
  | data _ _ h1 h2 h3 =>
    cases h3 with
    | ack e1 e2 e3 =>
      refine ⟨⟨c.remoteId, c.recvUnacked, 0, []⟩, rfl, rfl, rfl, by simp, ?_, by rw [e1], by rw [e1]⟩
      rw [e1]
      refine ⟨h.st, h.err, h.sendNew, h.sendClose, h.closeSent, h.id, ?_, ?_, h.win, h.ring, h.rok, h.oob, ?_, ?_, h.size,
        h.calls⟩
      · simp only [fr_snoc]; rw [if_neg (by simp), List.append_nil]; exact h.acc
      · simp only [dsum_snoc]; rw [if_neg (by simp), Nat.add_zero]; exact h.sent
      · have := h.recv
        simp only [asum_snoc, if_pos]; omega
      · have := h.room
        simp only; omega
    | msg f q1 e2 e3 e4 e5 =>
      have hf := hq f (by rw [e2]; simp)
      refine ⟨⟨c.remoteId, c.recvUnacked, f.1, f.2⟩, rfl, rfl, rfl, hf.2, ?_, by rw [e4], e5⟩
      have hne : f.2 ≠ [] := by intro e; have := hf.1; rw [e] at this; cases this
      rw [e4]
      refine ⟨h.st, h.err, h.sendNew, h.sendClose, h.closeSent, h.id, ?_, ?_, ?_, h.ring, h.rok, h.oob, ?_, ?_, h.size,
        h.calls⟩
      · simp only [fr_snoc]
        rw [if_pos ⟨trivial, hne⟩, List.append_assoc]
        rw [h.acc, e2]; rfl
      · have := h.sent
        simp only [dsum_snoc]
        rw [if_pos ⟨trivial, hne⟩]
        omega
      · have := h.win
        simp only [Chan.windowLeft] at e3
        simp only
        rw [if_pos this] at e3
        omega
      · have := h.recv
        simp only [asum_snoc, if_pos]; omega
      · have := h.room
        simp only; omega

theorem Rest.log {m : Mux} {log : List Dat} {Q : Nat → List Frame} {inn : List Dat} {x : Dat} {k : Nat}
    {R : Nat → List Frame} {P : Par} (h : Rest m log Q inn x k R P) {i : Nat} {c c' : Chan} {y : Dat}
    {q' : List Frame} (hc : m.chans[i]? = some c) (hy : y.r = c.remoteId) (ha : y.a = c.recvUnacked)
    (hd : y.d.length < 65536) (h1 : c'.id = c.id) (h2 : c'.linked = c.linked)
    (h3 : c'.remoteId = c.remoteId) (h4 : c'.wr.data.length = c.wr.data.length)
    (h5 : Stat c' P i) (hs : ChanSide c' (log ++ [y]) q' inn x k (R i) (P.s i) (P.u i) m.maxRead) :
    Rest (m.set i c') (log ++ [y]) (upd Q i q') inn x k R P := by
  have hg : ∀ j d, (m.set i c').chans[j]? = some d → (j = i ∧ d = c') ∨ (j ≠ i ∧ m.chans[j]? = some d) := by
    intro j d hd
    simp only [Mux.set, set_get hc] at hd
    by_cases hji : j = i
    · rw [if_pos hji] at hd; exact Or.inl ⟨hji, (Option.some.inj hd).symm⟩
    · rw [if_neg hji] at hd; exact Or.inr ⟨hji, hd⟩
  have hex : ∀ (j : Nat) (d : Chan), m.chans[j]? = some d → ∃ d', (m.set i c').chans[j]? = some d' ∧ d'.id = d.id
      ∧ d'.remoteId = d.remoteId := by
    intro j d hd
    simp only [Mux.set, set_get hc]
    by_cases hji : j = i
    · subst hji
      rw [hc] at hd
      have := Option.some.inj hd
      subst this
      exact ⟨c', if_pos rfl, h1, h3⟩
    · exact ⟨d, by rw [if_neg hji]; exact hd, rfl, rfl⟩
  refine ⟨h.xm, by simp only [Mux.set, List.length_set]; exact h.count, h.par, ?_, h.hdr, ?_, h.mw, h.mr, ?_, ?_, ?_, ?_,
    h.kx, ?_, ?_⟩
  · intro j d hd
    rcases hg j d hd with ⟨rfl, rfl⟩ | ⟨hji, hd⟩
    · exact h5
    · exact h.stat j d hd
  · intro j d hd
    rcases hg j d hd with ⟨rfl, rfl⟩ | ⟨hji, hd⟩
    · rw [h4]; exact h.wsize _ _ hc
    · exact h.wsize j d hd
  · intro j d hd
    rw [find_set hc h1 h2]
    rcases hg j d hd with ⟨rfl, rfl⟩ | ⟨hji, hd⟩
    · rw [h1]; exact h.find _ _ hc
    · exact h.find j d hd
  · intro a b d e hd he hr
    rcases hg a d hd with ⟨ha, hd1⟩ | ⟨ha, hd1⟩ <;> rcases hg b e he with ⟨hb, he1⟩ | ⟨hb, he1⟩
    · rw [ha, hb]
    · rw [ha]; exact h.rids _ _ _ _ hc he1 (by rw [← h3, ← hd1]; exact hr)
    · rw [hb]; exact h.rids _ _ _ _ hd1 hc (by rw [← h3, ← he1]; exact hr)
    · exact h.rids _ _ _ _ hd1 he1 hr
  · intro j d hd
    rcases hg j d hd with ⟨rfl, rfl⟩ | ⟨hji, hd⟩
    · rw [upd_same]; exact hs
    · rw [upd_other _ _ hji]
      refine (h.chan j d hd).logOther ?_
      rw [hy]
      exact fun e => hji (h.rids _ _ _ _ hc hd e).symm
  · intro z hz
    rcases List.mem_append.mp hz with hz | hz
    · obtain ⟨⟨j, d, hd, hr⟩, h5⟩ := h.logC z hz
      obtain ⟨d', hd', -, h6⟩ := hex j d hd
      exact ⟨⟨j, d', hd', by rw [h6]; exact hr⟩, h5⟩
    · rw [List.mem_singleton.mp hz]
      obtain ⟨d', hd', -, h6⟩ := hex i c hc
      have := (h.chan i c hc).room
      have := h.mr
      exact ⟨⟨i, d', hd', by rw [h6]; exact hy⟩, by rw [ha]; omega, hd⟩
  · intro hk
    obtain ⟨⟨j, d, hd, hr⟩, h5⟩ := h.xOk hk
    obtain ⟨d', hd', h6, -⟩ := hex j d hd
    exact ⟨⟨j, d', hd', by rw [h6]; exact hr⟩, h5⟩
  · refine ⟨h.parse.zero, h.parse.head, fun hk => ?_, h.parse.eight, h.parse.nine, h.parse.ten⟩
    obtain ⟨p1, p2, p3, p4, j, d, hj, hd, hr⟩ := h.parse.body hk
    obtain ⟨d', hd', h6, -⟩ := hex j d hd
    exact ⟨p1, p2, p3, p4, j, d', hj, hd', by rw [h6]; exact hr⟩

theorem Side.txStep {m m' : Mux} {L L' : List Msg} {log : List Dat} {Q Q' : Nat → List Frame} {inn : List Dat} {x : Dat}
    {k : Nat} {R : Nat → List Frame} {P : Par} (h : Side m log Q inn x k R P) (hL : L = log.map Dat.msg)
    (hs : TxStep (m, L, Q) (m', L', Q')) :
    ∃ log', L' = log'.map Dat.msg ∧ log <+: log' ∧ m.out <+: m'.out ∧ Side m' log' Q' inn x k R P := by
  subst hL
  have h1 := h.tx.step hs
  have h2 := h.svc.step hs
  cases hs with
  | skip i l c c' e1 e2 e3 e4 e5 =>
    refine ⟨log, rfl, List.prefix_refl _, List.prefix_refl _, h1, h2, ?_⟩
    exact (h.rest.set0 e4 (by rw [e5]) (by rw [e5]) (by rw [e5]) (by rw [e5])
      ((h.rest.stat _ _ e4).congr (by rw [e5]) (by rw [e5]) (by rw [e5]) (by rw [e5]; exact fun h => h) (by rw [e5]))
      ((h.rest.chan i c e4).congr (by rw [e5]))).congr rfl rfl ⟨rfl, rfl, rfl, rfl, rfl, rfl, rfl, rfl, rfl, rfl⟩
  | start i l c c' q' z e1 e2 e3 e4 e5 e6 e7 e8 e9 =>
    obtain ⟨y, hz, hy, ha, hd, hcs, e, hw⟩ := (h.rest.chan i c e4).start (h.tx.chan i c e4).ok e5
    refine ⟨log ++ [y], by rw [hz]; simp, List.prefix_append _ _, List.prefix_refl _, ?_, h2, ?_⟩
    · rw [hz] at h1; simpa using h1
    · exact (h.rest.log e4 hy ha hd (by rw [e]) (by rw [e]) (by rw [e]) (by rw [hw])
      ((h.rest.stat _ _ e4).congr (by rw [e]) (by rw [e]) (by rw [e]) (by rw [e]; exact fun h => h) (by rw [e])) hcs).congr rfl rfl
        ⟨rfl, rfl, rfl, rfl, rfl, rfl, rfl, rfl, rfl, rfl⟩
  | part i n c e1 e2 e3 =>
    refine ⟨log, rfl, List.prefix_refl _, List.prefix_append _ _, h1, h2, ?_⟩
    exact (h.rest.set0 (c' := { c with sg := advance c.sg n }) e2 rfl rfl rfl rfl
      ((h.rest.stat _ _ e2).congr rfl rfl rfl (fun h => h) rfl)
      ((h.rest.chan i c e2).congr rfl)).congr rfl rfl ⟨rfl, rfl, rfl, rfl, rfl, rfl, rfl, rfl, rfl, rfl⟩
  | done i c c' w e1 e2 e3 e4 =>
    refine ⟨log, rfl, List.prefix_refl _, List.prefix_append _ _, h1, h2, ?_⟩
    exact (h.rest.set0 e2 (by rw [e3]) (by rw [e3]) (by rw [e3]) (by rw [e3])
      ((h.rest.stat _ _ e2).congr (by rw [e3]) (by rw [e3]) (by rw [e3]) (by rw [e3]; exact fun h => h) (by rw [e3]))
      ((h.rest.chan i c e2).congr (by rw [e3]))).congr rfl rfl ⟨rfl, rfl, rfl, rfl, rfl, rfl, rfl, rfl, rfl, rfl⟩
  | xmit n z e1 e2 e3 e4 e5 =>
    rw [h.rest.xm] at e4
    cases e4
  | other b st e1 e2 =>
    refine ⟨log, rfl, List.prefix_refl _, by rw [e1]; exact List.prefix_refl _, h1, h2, ?_⟩
    refine h.rest.congr (by rw [e1]) (by rw [e1]) ?_
    rw [e1]
    exact ⟨rfl, rfl, rfl, rfl, rfl, rfl, rfl, rfl, rfl, rfl⟩

theorem Side.txSteps {a b : TxSt} (hs : TxSteps a b) {log : List Dat} {inn : List Dat} {x : Dat}
    {k : Nat} {R : Nat → List Frame} {P : Par} (h : Side a.1 log a.2.2 inn x k R P)
    (hL : a.2.1 = log.map Dat.msg) :
    ∃ log', b.2.1 = log'.map Dat.msg ∧ log <+: log' ∧ a.1.out <+: b.1.out ∧ Side b.1 log' b.2.2 inn x k R P := by
  induction hs with
  | refl => exact ⟨log, hL, List.prefix_refl _, List.prefix_refl _, h⟩
  | tail _ st ih =>
    obtain ⟨log1, e1, e2, e3, e4⟩ := ih
    obtain ⟨log2, g1, g2, g3, g4⟩ := e4.txStep e1 st
    exact ⟨log2, g1, e2.trans g2, e3.trans g3, g4⟩

theorem addWr_state {m m' : Mux} {i : Nat} (h : m.addWr i = some m') : m'.state = m.state := by
  rw [Mux.addWr] at h
  split at h
  · cases h
  · split at h
    · rw [← Option.some.inj h]
    · split at h
      · cases h
      · rw [← Option.some.inj h]; rfl

theorem pickOne_state {m m' : Mux} {i : Nat} {c : Chan} {b : Bool} (h : m.pickOne i c = some (m', b)) :
    m'.state = m.state := by
  rw [Mux.pickOne] at h
  split at h
  · split at h
    · cases h
    · rw [← (Prod.mk.inj (Option.some.inj h)).1]; rfl
  · split at h
    · split at h
      · cases h
      · rw [← (Prod.mk.inj (Option.some.inj h)).1]; rfl
      · rw [← (Prod.mk.inj (Option.some.inj h)).1]; rfl
    · split at h
      · split at h
        · cases h
        · split at h
          · cases h
          · rename_i e
            split at h
            · cases h
            · rw [← (Prod.mk.inj (Option.some.inj h)).1]
              have e' := addWr_state e
              exact e'
      · rw [← (Prod.mk.inj (Option.some.inj h)).1]; rfl

theorem pick_state : ∀ (l : List Nat) (m m' : Mux), m.pick l = some m' → m'.state = m.state
  | [], m, m', h => by
    rw [Mux.pick] at h
    rw [← Option.some.inj h]
  | i :: l, m, m', h => by
    rw [Mux.pick] at h
    split at h
    · cases h
    · split at h
      · cases h
      · rename_i e
        rw [← Option.some.inj h]
        have e' := pickOne_state e
        exact e'
      · rename_i e
        rw [pick_state l _ _ h]
        have e' := pickOne_state e
        exact e'

theorem sendPart_state {m m' : Mux} {i n : Nat} (h : m.sendPart i n = some m') : m'.state = m.state := by
  rw [Mux.sendPart] at h
  split at h
  · cases h
  · rename_i c _
    split at h
    · cases h
    · simp only at h
      split at h
      · rw [← Option.some.inj h, Mux.sentAll]
        simp only
        generalize (if c.curLen ≤ c.wr.len then _ else _ : Nat) = n
        split <;> rfl
      · rw [← Option.some.inj h]; rfl

/-- Without an error of the child, sending leaves the state alone. -/
theorem flush_state : ∀ (ans : List (Option Nat)) (m m' : Mux), (∀ a ∈ ans, a.isSome = true) → m.flush ans = some m' →
    m'.state = m.state
  | [], m, m', _, h => by
    rw [Mux.flush] at h
    split at h
    · cases h
    · rename_i e
      rw [← Option.some.inj h]
      split at e
      · have e' := pick_state _ _ _ e
        exact e'
      · rw [← Option.some.inj e]; rfl
  | a :: ans, m, m', ha, h => by
    have ha1 := ha a (List.mem_cons_self ..)
    have ha2 : ∀ b ∈ ans, b.isSome = true := fun b hb => ha b (List.mem_cons_of_mem _ hb)
    rw [Mux.flush] at h
    split at h
    · cases h
    · rename_i m1 e
      have e1 : m1.state = m.state := by
        split at e
        · exact pick_state _ _ _ e
        · rw [← Option.some.inj e]
      split at h
      · split at h
        · cases ha1
        · split at h
          · cases h
          · rename_i e2
            split at h
            · rw [flush_state ans _ _ ha2 h, sendPart_state e2, e1]
            · rw [← Option.some.inj h]
              exact (sendPart_state e2).trans e1
      · split at h
        · rw [← Option.some.inj h]; exact e1
        · split at h
          · cases ha1
          · have e3 : ∀ n, (m1.sendXmit n).state = m1.state := by
              intro n; rw [Mux.sendXmit]; split <;> rfl
            split at h
            · rw [flush_state ans _ _ ha2 h, e3, e1]
            · rw [← Option.some.inj h]
              exact (e3 _).trans e1

theorem Side.writeReady {m : Mux} {log : List Dat} {Q : Nat → List Frame} {inn : List Dat} {x : Dat} {k : Nat}
    {R : Nat → List Frame} {P : Par} (h : Side m log Q inn x k R P) (ans : List (Option Nat))
    (ha : ∀ a ∈ ans, a.isSome = true) :
    ∃ m' log' Q', m.writeReady ans = some m' ∧ log <+: log' ∧ m.out <+: m'.out ∧ Side m' log' Q' inn x k R P
      ∧ m'.state = m.state := by
  obtain ⟨m', L', Q', e, hs⟩ := writeReady_spec h.tx h.svc ans
  obtain ⟨log', e1, e2, e3, e4⟩ := h.txSteps hs rfl
  refine ⟨m', log', Q', e, e2, e3, e4, ?_⟩
  rw [Mux.writeReady] at e
  split at e
  · rw [← Option.some.inj e]
  · exact flush_state ans m m' ha e

end Gensio.Mux
