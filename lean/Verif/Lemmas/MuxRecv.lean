import Verif.Lemmas.MuxSide

/-!
# One end of an established mux session receives a byte
-/

namespace Gensio.Mux

/-- A byte changes one channel and the state of the receiver. -/
theorem Rest.recv {m m' : Mux} {log : List Dat} {Q : Nat → List Frame} {inn inn' : List Dat} {x x' : Dat} {k k' : Nat}
    {R R' : Nat → List Frame} {P : Par} (h : Rest m log Q inn x k R P) {i : Nat} {c c' : Chan}
    (hc : m.chans[i]? = some c) (h1 : c'.id = c.id) (h2 : c'.linked = c.linked)
    (h3 : c'.remoteId = c.remoteId) (h4 : c'.wr.data.length = c.wr.data.length) (h5 : Stat c' P i)
    (hch : m'.chans = m.chans.set i c') (hx : m'.xmit = m.xmit) (hl : m'.hdr.length = 12) (hmr : m'.maxRead = m.maxRead)
    (hmw : m'.maxWrite = m.maxWrite) (hcs : ChanSide c' log (Q i) inn' x' k' (R' i) (P.s i) (P.u i) m.maxRead)
    (hos : ∀ j d, j ≠ i → m.chans[j]? = some d → ChanSide d log (Q j) inn' x' k' (R' j) (P.s j) (P.u j) m.maxRead)
    (hk : k' < 10 + x'.d.length)
    (hxOk : 0 < k' → (∃ (i : Nat) (c : Chan), m.chans[i]? = some c ∧ c.id = x'.r) ∧ x'.a < 4294967296
      ∧ x'.d.length < 65536)
    (hp : Parse m' x' k') : Rest m' log Q inn' x' k' R' P := by
  have hg : ∀ j d, m'.chans[j]? = some d → (j = i ∧ d = c') ∨ (j ≠ i ∧ m.chans[j]? = some d) := by
    intro j d hd
    rw [hch, set_get hc] at hd
    by_cases hji : j = i
    · rw [if_pos hji] at hd; exact Or.inl ⟨hji, (Option.some.inj hd).symm⟩
    · rw [if_neg hji] at hd; exact Or.inr ⟨hji, hd⟩
  have hex : ∀ (j : Nat) (d : Chan), m.chans[j]? = some d → ∃ d', m'.chans[j]? = some d' ∧ d'.id = d.id
      ∧ d'.remoteId = d.remoteId := by
    intro j d hd
    rw [hch]
    simp only [set_get hc]
    by_cases hji : j = i
    · subst hji
      rw [hc] at hd
      have := Option.some.inj hd
      subst this
      exact ⟨c', if_pos rfl, h1, h3⟩
    · exact ⟨d, by rw [if_neg hji]; exact hd, rfl, rfl⟩
  have hfind : ∀ id, m'.find id = m.find id := by
    intro id
    have := find_set (m := m) hc h1 h2 id
    rw [← this, Mux.find, hch]
    rfl
  refine ⟨by rw [hx]; exact h.xm, by rw [hch, List.length_set]; exact h.count, by rw [hmr]; exact h.par, ?_, hl, ?_,
    by rw [hmw]; exact h.mw, by rw [hmr]; exact h.mr, ?_, ?_, ?_, ?_, hk, ?_, hp⟩
  · intro j d hd
    rcases hg j d hd with ⟨rfl, rfl⟩ | ⟨hji, hd⟩
    · exact h5
    · exact h.stat j d hd
  · intro j d hd
    rw [hmw]
    rcases hg j d hd with ⟨rfl, rfl⟩ | ⟨hji, hd⟩
    · rw [h4]; exact h.wsize _ _ hc
    · exact h.wsize j d hd
  · intro j d hd
    rw [hfind]
    rcases hg j d hd with ⟨rfl, rfl⟩ | ⟨hji, hd⟩
    · rw [h1]; exact h.find _ _ hc
    · exact h.find j d hd
  · intro a b d e hd he hr
    rcases hg a d hd with ⟨ha, hd1⟩ | ⟨ha, hd1⟩ <;> rcases hg b e he with ⟨hb, he1⟩ | ⟨hb, he1⟩
    · rw [ha, hb]
    · rw [ha]; exact h.rids _ _ _ _ hc he1 (by rw [← h3, ← hd1]; exact hr)
    · rw [hb]; exact h.rids _ _ _ _ hd1 hc (by rw [← h3, ← he1]; exact hr)
    · exact h.rids _ _ _ _ hd1 he1 hr
  · intro j d hd
    rw [hmr]
    rcases hg j d hd with ⟨rfl, rfl⟩ | ⟨hji, hd⟩
    · exact hcs
    · exact hos j d hji hd
  · intro z hz
    obtain ⟨⟨j, d, hd, hr⟩, h5⟩ := h.logC z hz
    obtain ⟨d', hd', -, h6⟩ := hex j d hd
    exact ⟨⟨j, d', hd', by rw [h6]; exact hr⟩, h5⟩
  · intro hk
    obtain ⟨⟨j, d, hd, hr⟩, h5⟩ := hxOk hk
    obtain ⟨d', hd', h6, -⟩ := hex j d hd
    exact ⟨⟨j, d', hd', by rw [h6]; exact hr⟩, h5⟩

/-! ## What a byte means for the channels -/

section chan
variable {c : Chan} {log : List Dat} {q : List Frame} {inn : List Dat} {x : Dat} {k : Nat} {r : List Frame}
  {s u maxRead : Nat}

theorem part_early {id : Nat} {x : Dat} {k : Nat} (h : k < 10) : part id x k = [] := by
  rw [part, if_neg (by omega)]
theorem rest_early {id : Nat} {x : Dat} {k : Nat} (h : k < 10) : rest id x k = 0 := by
  rw [Mux.rest, if_neg (by omega)]
theorem part_other {id : Nat} {x : Dat} {k : Nat} (h : x.r ≠ id) : part id x k = [] := by
  rw [part, if_neg (fun e => h e.1)]
theorem rest_other {id : Nat} {x : Dat} {k : Nat} (h : x.r ≠ id) : rest id x k = 0 := by
  rw [Mux.rest, if_neg (fun e => h e.1)]
theorem hin_lt {inn : List Dat} {x : Dat} {k : Nat} (h : k < 8) : hin inn x k = inn := by
  rw [hin, if_neg (by omega)]
theorem hin_ge {inn : List Dat} {x : Dat} {k : Nat} (h : 8 ≤ k) : hin inn x k = inn ++ [x] := by
  rw [hin, if_pos h]

/-- Bytes of the header, or the choice of the next message. -/
theorem ChanSide.early (h : ChanSide c log q inn x k r s u maxRead) (hk : k < 8) {x' : Dat} {k' : Nat} (hk' : k' < 8) :
    ChanSide c log q inn x' k' r s u maxRead := by
  have h1 := h.sent; have h2 := h.ring; have h3 := h.recv; have h4 := h.room
  rw [hin_lt hk] at h1
  rw [part_early (by omega)] at h2 h3
  rw [rest_early (by omega)] at h4
  refine ⟨h.st, h.err, h.sendNew, h.sendClose, h.closeSent, h.id, h.acc, ?_, h.win, ?_, h.rok, h.oob, ?_, ?_, h.size, h.calls⟩
  · rw [hin_lt hk']; exact h1
  · rw [part_early (by omega)]; exact h2
  · rw [part_early (by omega)]; exact h3
  · rw [rest_early (by omega)]; exact h4

/-- The acknowledgement arrives. -/
theorem ChanSide.ack (h : ChanSide c log q inn x 7 r s u maxRead) (hx : x.r = c.id) (ha : x.a ≤ c.sentUnacked) :
    ChanSide { c with sentUnacked := c.sentUnacked - x.a } log q inn x 8 r s u maxRead := by
  have h1 := h.sent; have h2 := h.ring; have h3 := h.recv; have h4 := h.room; have h5 := h.win
  rw [hin_lt (by omega)] at h1
  rw [part_early (by omega)] at h2 h3
  rw [rest_early (by omega)] at h4
  refine ⟨h.st, h.err, h.sendNew, h.sendClose, h.closeSent, h.id, h.acc, ?_, ?_, ?_, h.rok, h.oob, ?_, ?_, h.size, h.calls⟩
  · simp only
    rw [hin_ge (by omega), asum_snoc, if_pos hx]; omega
  · simp only; omega
  · simp only; rw [part_early (by omega)]; exact h2
  · simp only; rw [part_early (by omega)]; exact h3
  · simp only; rw [rest_early (by omega)]; exact h4

theorem ChanSide.ackOther (h : ChanSide c log q inn x 7 r s u maxRead) (hx : x.r ≠ c.id) :
    ChanSide c log q inn x 8 r s u maxRead := by
  have h1 := h.sent; have h2 := h.ring; have h3 := h.recv; have h4 := h.room
  rw [hin_lt (by omega)] at h1
  rw [part_early (by omega)] at h2 h3
  rw [rest_early (by omega)] at h4
  refine ⟨h.st, h.err, h.sendNew, h.sendClose, h.closeSent, h.id, h.acc, ?_, h.win, ?_, h.rok, h.oob, ?_, ?_, h.size, h.calls⟩
  · rw [hin_ge (by omega), asum_other hx]; exact h1
  · rw [part_early (by omega)]; exact h2
  · rw [part_early (by omega)]; exact h3
  · rw [rest_early (by omega)]; exact h4

/-- The rest of a message for another channel. -/
theorem ChanSide.other (h : ChanSide c log q inn x k r s u maxRead) (hk : 8 ≤ k) (hx : x.r ≠ c.id) {k' : Nat}
    (hk' : 8 ≤ k') : ChanSide c log q inn x k' r s u maxRead := by
  have h1 := h.sent; have h2 := h.ring; have h3 := h.recv; have h4 := h.room
  rw [hin_ge hk] at h1
  rw [part_other hx] at h2 h3
  rw [rest_other hx] at h4
  refine ⟨h.st, h.err, h.sendNew, h.sendClose, h.closeSent, h.id, h.acc, ?_, h.win, ?_, h.rok, h.oob, ?_, ?_, h.size, h.calls⟩
  · rw [hin_ge hk']; exact h1
  · rw [part_other hx]; exact h2
  · rw [part_other hx]; exact h3
  · rw [rest_other hx]; exact h4

/-- The end of a message without data, or of one for another channel. -/
theorem ChanSide.skip (h : ChanSide c log q inn x k r s u maxRead) (hk : 8 ≤ k)
    (hx : x.r ≠ c.id ∨ x.d = [] ∧ k < 10) {x' : Dat} : ChanSide c log q (inn ++ [x]) x' 0 r s u maxRead := by
  have h1 := h.sent; have h2 := h.ring; have h3 := h.recv; have h4 := h.room; have h6 := h.calls
  rw [hin_ge hk] at h1
  have e1 : part c.id x k = [] := by
    rcases hx with hx | hx
    · exact part_other hx
    · exact part_early hx.2
  have e2 : Mux.rest c.id x k = 0 := by
    rcases hx with hx | hx
    · exact rest_other hx
    · exact rest_early hx.2
  have e3 : ¬ (x.r = c.id ∧ x.d ≠ []) := by
    rintro ⟨a, b⟩
    rcases hx with hx | hx
    · exact hx a
    · exact b hx.1
  rw [e1] at h2 h3
  rw [e2] at h4
  refine ⟨h.st, h.err, h.sendNew, h.sendClose, h.closeSent, h.id, h.acc, ?_, h.win, ?_, h.rok, h.oob, ?_, ?_, h.size, ?_⟩
  · rw [hin_lt (by omega)]; exact h1
  · rw [part_early (by omega)]; exact h2
  · rw [part_early (by omega), dsum_snoc, if_neg e3]; exact h3
  · rw [rest_early (by omega)]; exact h4
  · rw [fr_snoc, if_neg e3, List.append_nil]; exact h6

theorem ChanSide.nine (h : ChanSide c log q inn x 8 r s u maxRead) : ChanSide c log q inn x 9 r s u maxRead := by
  have h1 := h.sent; have h2 := h.ring; have h3 := h.recv; have h4 := h.room
  rw [hin_ge (by omega)] at h1
  rw [part_early (by omega)] at h2 h3
  rw [rest_early (by omega)] at h4
  refine ⟨h.st, h.err, h.sendNew, h.sendClose, h.closeSent, h.id, h.acc, ?_, h.win, ?_, h.rok, h.oob, ?_, ?_, h.size, h.calls⟩
  · rw [hin_ge (by omega)]; exact h1
  · rw [part_early (by omega)]; exact h2
  · rw [part_early (by omega)]; exact h3
  · rw [rest_early (by omega)]; exact h4

/-- The length of a message arrives. -/
theorem ChanSide.length (h : ChanSide c log q inn x 9 r s u maxRead) (hx : x.r = c.id)
    (hr : c.rd.len + c.recvUnacked + (x.d.length + 3) ≤ maxRead) (rcv : List (UInt8 × List UInt8)) :
    ∃ rd', c.rd.add (x.f :: be16 x.d.length) = some rd' ∧
      ChanSide { c with rd := rd', rcv := rcv } log q inn x 10 r s u maxRead := by
  have h1 := h.sent; have h2 := h.ring; have h3 := h.recv
  rw [hin_ge (by omega)] at h1
  rw [part_early (by omega)] at h2 h3
  rw [List.append_nil] at h2
  have hsz := h.size
  have hlen := h2.len
  obtain ⟨rd', e1, e2, e3, e4⟩ := h2.add (d := x.f :: be16 x.d.length) (by
    simp only [List.length_cons, be16_length]; omega)
  have ep : part c.id x 10 = x.f :: be16 x.d.length := by
    rw [part, if_pos ⟨hx, Nat.le_refl _⟩]; simp
  have el : rd'.len = c.rd.len + 3 := by
    rw [e2.len, List.length_append, ← hlen]; rfl
  refine ⟨rd', e1, ⟨h.st, h.err, h.sendNew, h.sendClose, h.closeSent, h.id, h.acc, ?_, h.win, ?_, h.rok, h.oob, ?_, ?_, ?_,
    h.calls⟩⟩
  · simp only; rw [hin_ge (by omega)]; exact h1
  · simp only; rw [ep]; exact e2
  · simp only; rw [ep, el]
    simp only [List.length_cons, be16_length]
    simp only [List.length_nil] at h3
    omega
  · simp only; rw [el, Mux.rest, if_pos ⟨hx, Nat.le_refl _⟩]; omega
  · simp only; rw [e4]; exact hsz

/-- A byte of data is stored. -/
theorem ChanSide.store (h : ChanSide c log q inn x k r s u maxRead) (hx : x.r = c.id) (hk : 10 ≤ k)
    (hkx : k < 10 + x.d.length) :
    ∃ rd', c.rd.add [x.d[k - 10]'(by omega)] = some rd' ∧ rd'.len = c.rd.len + 1
      ∧ Holds rd' (r.flatMap enc ++ (x.f :: (be16 x.d.length ++ x.d.take (k + 1 - 10))))
      ∧ rd'.data.length = c.rd.data.length := by
  have h2 := h.ring; have h3 := h.recv; have h4 := h.room
  rw [part, if_pos ⟨hx, hk⟩] at h2
  rw [Mux.rest, if_pos ⟨hx, hk⟩] at h4
  have hsz := h.size
  have hlen := h2.len
  obtain ⟨rd', e1, e2, e3, e4⟩ := h2.add (d := [x.d[k - 10]'(by omega)]) (by
    simp only [List.length_cons, List.length_nil]; omega)
  refine ⟨rd', e1, ?_, ?_, e4⟩
  · rw [e2.len, List.length_append, ← hlen]; rfl
  · have : x.d.take (k + 1 - 10) = x.d.take (k - 10) ++ [x.d[k - 10]'(by omega)] := by
      rw [show k + 1 - 10 = (k - 10) + 1 by omega, List.take_succ_eq_append_getElem]
    rw [this]
    simp only [List.append_assoc, List.cons_append, List.nil_append] at e2 ⊢
    exact e2

/-- A byte of data that is not the last. -/
theorem ChanSide.more (h : ChanSide c log q inn x k r s u maxRead) (hx : x.r = c.id) (hk : 10 ≤ k)
    (hkx : k + 1 < 10 + x.d.length) (rcv : List (UInt8 × List UInt8)) {rd' : Ring} (e1 : rd'.len = c.rd.len + 1)
    (e2 : Holds rd' (r.flatMap enc ++ (x.f :: (be16 x.d.length ++ x.d.take (k + 1 - 10)))))
    (e3 : rd'.data.length = c.rd.data.length) :
    ChanSide { c with rd := rd', rcv := rcv } log q inn x (k + 1) r s u maxRead := by
  have h1 := h.sent; have h3 := h.recv; have h4 := h.room
  rw [hin_ge (by omega)] at h1
  rw [part, if_pos ⟨hx, hk⟩] at h3
  rw [Mux.rest, if_pos ⟨hx, hk⟩] at h4
  refine ⟨h.st, h.err, h.sendNew, h.sendClose, h.closeSent, h.id, h.acc, ?_, h.win, ?_, h.rok, h.oob, ?_, ?_, ?_, h.calls⟩
  · simp only; rw [hin_ge (by omega)]; exact h1
  · simp only; rw [part, if_pos ⟨hx, by omega⟩]; exact e2
  · simp only; rw [part, if_pos ⟨hx, by omega⟩, e1]
    simp only [List.length_cons, List.length_append, be16_length, List.length_take] at h3 ⊢
    omega
  · simp only; rw [Mux.rest, if_pos ⟨hx, by omega⟩, e1]; omega
  · simp only; rw [e3]; exact h.size

/-- The last byte of a message. -/
theorem ChanSide.last (h : ChanSide c log q inn x k r s u maxRead) (hx : x.r = c.id) (hk : 10 ≤ k)
    (hkx : k + 1 = 10 + x.d.length) (hd : x.d.length < 65536) (ho : oobFlag x.f = true → c.doOob = true)
    (rcv : List (UInt8 × List UInt8)) {rd' : Ring} (e1 : rd'.len = c.rd.len + 1)
    (e2 : Holds rd' (r.flatMap enc ++ (x.f :: (be16 x.d.length ++ x.d.take (k + 1 - 10)))))
    (e3 : rd'.data.length = c.rd.data.length) {x' : Dat} :
    ChanSide { c with rd := rd', rcv := rcv } log q (inn ++ [x]) x' 0 (r ++ [(x.f, x.d)]) s u maxRead := by
  have h1 := h.sent; have h3 := h.recv; have h4 := h.room
  rw [hin_ge (by omega)] at h1
  rw [part, if_pos ⟨hx, hk⟩] at h3
  rw [Mux.rest, if_pos ⟨hx, hk⟩] at h4
  have hne : x.r = c.id ∧ x.d ≠ [] := ⟨hx, by intro e; rw [e] at hkx; simp at hkx; omega⟩
  refine ⟨h.st, h.err, h.sendNew, h.sendClose, h.closeSent, h.id, h.acc, ?_, h.win, ?_, ?_, ?_, ?_, ?_, ?_, ?_⟩
  · simp only; rw [hin_lt (by omega)]; exact h1
  · simp only
    rw [part_early (by omega), List.append_nil, List.flatMap_append]
    rw [List.take_of_length_le (by omega)] at e2
    simpa [enc] using e2
  · intro f hf
    rcases List.mem_append.mp hf with hf | hf
    · exact h.rok f hf
    · rw [List.mem_singleton.mp hf]; exact ⟨by simp only; omega, hd⟩
  · intro f hf hof
    rcases List.mem_append.mp hf with hf | hf
    · exact h.oob f hf hof
    · rw [List.mem_singleton.mp hf] at hof; exact ho hof
  · simp only; rw [part_early (by omega), dsum_snoc, if_pos hne, e1]
    simp only [List.length_cons, List.length_append, be16_length, List.length_take, List.length_nil] at h3 ⊢
    omega
  · simp only; rw [rest_early (by omega), e1]; omega
  · simp only; rw [e3]; exact h.size
  · simp only
    rw [fr_snoc, if_pos hne, List.flatMap_append, List.flatMap_append, ← List.append_assoc, h.calls]

end chan

/-! ## Receiving a byte -/

theorem Dat.bytes (x : Dat) : x.msg.bytes = [0x52, x.f, UInt8.ofNat (x.r / 256), UInt8.ofNat x.r, UInt8.ofNat (x.a / 16777216),
    UInt8.ofNat (x.a / 65536), UInt8.ofNat (x.a / 256), UInt8.ofNat x.a, UInt8.ofNat (x.d.length / 256),
    UInt8.ofNat x.d.length] ++ x.d := rfl

theorem take_set_succ {l : List UInt8} {k : Nat} {b : UInt8} (h : k < l.length) :
    (l.set k b).take (k + 1) = l.take k ++ [b] := by
  rw [List.take_succ_eq_append_getElem (by rw [List.length_set]; exact h), List.take_set,
    List.set_eq_of_length_le (by rw [List.length_take]; omega)]
  simp

theorem take_getD {l m : List UInt8} {k j : Nat} (h : l.take k = m.take k) (hj : j < k) : l.getD j 0 = m.getD j 0 := by
  have h1 : l[j]? = (l.take k)[j]? := by rw [List.getElem?_take, if_pos hj]
  have h2 : m[j]? = (m.take k)[j]? := by rw [List.getElem?_take, if_pos hj]
  rw [List.getD_eq_getElem?_getD, List.getD_eq_getElem?_getD, h1, h2, h]

theorem set_self {l : List Chan} {i : Nat} {c : Chan} (h : l[i]? = some c) : l.set i c = l := by
  obtain ⟨h1, h2⟩ := List.getElem?_eq_some_iff.mp h
  rw [← h2]; exact List.set_getElem_self h1

/-- What one byte does. -/
structure Recv (m m' : Mux) (log : List Dat) (Q : Nat → List Frame) (inn : List Dat) (x : Dat) (k : Nat) (P : Par) :
    Prop where
  st : m'.state = .opened
  out : m'.out = m.out
  more : k + 1 < 10 + x.d.length → ∃ R, Side m' log Q inn x (k + 1) R P
  done : k + 1 = 10 + x.d.length → ∃ R, ∀ x', Side m' log Q (inn ++ [x]) x' 0 R P

section recv
variable {m : Mux} {log : List Dat} {Q : Nat → List Frame} {inn : List Dat} {x : Dat} {k : Nat} {R : Nat → List Frame}
  {P : Par}

/-- Before a message starts, it can be any message. -/
theorem Side.choose (h : Side m log Q inn x 0 R P) (x' : Dat) : Side m log Q inn x' 0 R P := by
  refine ⟨h.tx, h.svc, ?_⟩
  refine ⟨h.rest.xm, h.rest.count, h.rest.par, h.rest.stat, h.rest.hdr, h.rest.wsize, h.rest.mw, h.rest.mr, h.rest.find,
    h.rest.rids, fun i c hc => (h.rest.chan i c hc).early (by omega) (by omega), h.rest.logC, by omega,
    fun e => absurd e (by omega), ⟨h.rest.parse.zero, ?_, ?_, ?_, ?_, ?_⟩⟩ <;> intros <;> omega

/-- A byte of the header that is not the last. -/
theorem Side.hdrByte (h : Side m log Q inn x k R P) (hk : k + 1 < 8) {i : Nat} {c : Chan} (hc : m.chans[i]? = some c)
    (hi : c.id = x.r) (ha : x.a < 4294967296) (hd : x.d.length < 65536) {m' : Mux} {hdr : List UInt8}
    (e : m' = { m with hdr := hdr, hdrPos := k + 1, hdrSize := 8, msgid := 5 }) (hin : m.inHdr = true)
    (hl : hdr.length = 12) (hh : hdr.take (k + 1) = x.msg.bytes.take (k + 1)) : Side m' log Q inn x (k + 1) R P := by
  refine ⟨h.tx.congr (by rw [e]) (by rw [e]) (by rw [e]) (by rw [e]) (by rw [e]) (by rw [e]), ?_, ?_⟩
  · intro j d hj
    rw [e] at hj
    exact h.svc j d hj
  · refine h.rest.recv (c' := c) hc rfl rfl rfl rfl (h.rest.stat _ _ hc) (by rw [e, set_self hc])
      (by rw [e]) (by rw [e]; exact hl) (by rw [e]) (by rw [e]) ((h.rest.chan i c hc).early (by omega) (by omega))
      (fun j d _ hj => (h.rest.chan j d hj).early (by omega) (by omega)) (by omega) (fun _ => ⟨⟨i, c, hc, hi⟩, ha, hd⟩) ?_
    refine ⟨fun z => absurd z (by omega), fun _ _ => ?_, fun z => absurd z (by omega), fun z => absurd z (by omega),
      fun z => absurd z (by omega), fun z => absurd z (by omega)⟩
    rw [e]
    exact ⟨hin, rfl, rfl, rfl, hh⟩

theorem rxByte_open {b : UInt8} {e : Env} (hst : m.state = .opened) : m.rxByte b e =
    if m.inHdr then m.rxHdr b e
    else if m.dataPos = 0 then some { m with dataSize := b.toNat * 256, dataPos := 1 }
    else if m.dataPos = 1 then m.rxLen b e
    else m.rxBody b e := by
  rw [Mux.rxByte, if_neg (by rw [hst]; simp)]

theorem Side.recvFirst (h : Side m log Q inn x 0 R P) (hst : m.state = .opened) {i : Nat} {c : Chan}
    (hc : m.chans[i]? = some c) (hi : c.id = x.r) (ha : x.a < 4294967296) (hd : x.d.length < 65536) (e : Env) :
    ∃ m', m.rxByte (x.msg.bytes.getD 0 0) e = some m' ∧ Recv m m' log Q inn x 0 P := by
  obtain ⟨p1, p2⟩ := h.rest.parse.zero rfl
  have hl := h.rest.hdr
  rw [rxByte_open hst, if_pos p1, Mux.rxHdr, if_pos p2]
  have hb : x.msg.bytes.getD 0 0 = 0x52 := rfl
  simp only [hb]
  rw [if_neg (by decide), if_neg (by decide), if_neg (by decide)]
  refine ⟨_, rfl, ⟨hst, rfl, fun _ => ⟨R, ?_⟩, fun z => absurd z (by omega)⟩⟩
  refine h.hdrByte (hdr := m.hdr.set 0 0x52) (by omega) hc hi ha hd rfl p1 (by rw [List.length_set]; exact hl) ?_
  rw [take_set_succ (by omega)]
  rfl

theorem Side.recvHdr (h : Side m log Q inn x k R P) (hst : m.state = .opened) (hk0 : 0 < k) (hk : k < 7) {i : Nat} {c : Chan}
    (hc : m.chans[i]? = some c) (hi : c.id = x.r) (ha : x.a < 4294967296) (hd : x.d.length < 65536) (e : Env) :
    ∃ m', m.rxByte (x.msg.bytes.getD k 0) e = some m' ∧ Recv m m' log Q inn x k P := by
  obtain ⟨p1, p2, p3, p4, p5⟩ := h.rest.parse.head hk0 (by omega)
  have hl := h.rest.hdr
  rw [rxByte_open hst, if_pos p1, Mux.rxHdr, if_neg (by omega), if_pos (by omega)]
  refine ⟨_, rfl, ⟨hst, rfl, fun _ => ⟨R, ?_⟩, fun z => absurd z (by omega)⟩⟩
  refine h.hdrByte (hdr := m.hdr.set k (x.msg.bytes.getD k 0)) (by omega) hc hi ha hd ?_ p1
    (by rw [List.length_set]; exact hl) ?_
  · rw [p2, ← p3, ← p4]
  · rw [take_set_succ (by omega), p5, List.take_succ_eq_append_getElem (by rw [Dat.len]; omega),
      List.getD_eq_getElem?_getD, List.getElem?_eq_getElem (by rw [Dat.len]; omega)]
    rfl

theorem rd16_val {l : List UInt8} {r i : Nat} (h1 : l.getD i 0 = UInt8.ofNat (r / 256))
    (h2 : l.getD (i + 1) 0 = UInt8.ofNat r) (hr : r < 65536) : rd16 l i = r := by
  rw [rd16, h1, h2, be16_val hr]

theorem Side.recvAck (h : Side m log Q inn x 7 R P) (hst : m.state = .opened) {i : Nat} {c : Chan}
    (hc : m.chans[i]? = some c) (hi : c.id = x.r) (ha : x.a < 4294967296) (hd : x.d.length < 65536)
    (hack : x.a ≤ c.sentUnacked) (e : Env) :
    ∃ m', m.rxByte (x.msg.bytes.getD 7 0) e = some m' ∧ Recv m m' log Q inn x 7 P := by
  obtain ⟨p1, p2, p3, p4, p5⟩ := h.rest.parse.head (by omega) (by omega)
  have hl := h.rest.hdr
  have hs := h.rest.chan i c hc
  rw [rxByte_open hst, if_pos p1, Mux.rxHdr, if_neg (by omega), if_neg (by omega), p2]
  generalize hhd : m.hdr.set 7 (x.msg.bytes.getD 7 0) = hdr
  have hl' : hdr.length = 12 := by rw [← hhd, List.length_set]; exact hl
  have ht : hdr.take 8 = x.msg.bytes.take 8 := by
    rw [← hhd, take_set_succ (by omega), p5, List.take_succ_eq_append_getElem (by rw [Dat.len]; omega)]
    rw [List.getD_eq_getElem?_getD, List.getElem?_eq_getElem (by rw [Dat.len]; omega)]
    rfl
  have hr : rd16 hdr 2 = x.r := by
    refine rd16_val ?_ ?_ (by rw [← hi]; exact hs.id)
    · rw [take_getD ht (by omega)]; rfl
    · rw [take_getD ht (by omega)]; rfl
  have hk : rd32 hdr 4 = x.a := by
    rw [rd32, take_getD ht (show 4 < 8 by omega), take_getD ht (show 4 + 1 < 8 by omega),
      take_getD ht (show 4 + 2 < 8 by omega), take_getD ht (show 4 + 3 < 8 by omega)]
    exact be32_val ha
  have hf : hdr.getD 1 0 = x.f := by rw [take_getD ht (by omega)]; rfl
  have hfind : m.find x.r = some i := by rw [← hi]; exact h.rest.find i c hc
  rw [Mux.onHdr]
  simp only [p4]
  rw [if_neg (by omega), if_neg (by rw [hst]; simp), if_neg (by omega), if_neg (by omega), if_neg (by omega), if_pos trivial,
    Mux.onData]
  simp only [hr]
  have hfind' : ({ m with hdr := hdr, hdrPos := 0 } : Mux).find x.r = some i := hfind
  simp only [p4] at hfind'
  rw [hfind']
  simp only [hc]
  rw [if_neg (by rw [hs.st]; simp)]
  rw [hk, if_neg (by omega)]
  -- the state after the header
  have key : ∀ m1 : Mux, m1 = { m with
      hdr := hdr, hdrPos := 0, chans := m.chans.set i { c with sentUnacked := c.sentUnacked - x.a }
      curr := some i, dataPos := 0, inHdr := false } → Side m1 log Q inn x 8 R P := by
    intro m1 e1
    refine ⟨?_, ?_, ?_⟩
    · exact (h.tx.set' (c' := { c with sentUnacked := c.sentUnacked - x.a }) hc rfl rfl rfl rfl (Or.inl rfl) rfl
        rfl).congr (by rw [e1]; rfl) (by rw [e1]; rfl) (by rw [e1]; rfl) (by rw [e1]; rfl) (by rw [e1]; rfl)
        (by rw [e1]; rfl)
    · have := h.svc.set (c' := { c with sentUnacked := c.sentUnacked - x.a }) hc (h.svc i c hc)
      intro j d hj
      rw [e1] at hj
      exact this j d hj
    · refine h.rest.recv (c' := { c with sentUnacked := c.sentUnacked - x.a }) hc rfl rfl rfl rfl
        ((h.rest.stat _ _ hc).congr rfl rfl rfl (fun h => h) rfl) (by rw [e1])
        (by rw [e1]) (by rw [e1]; exact hl') (by rw [e1]) (by rw [e1]) (hs.ack hi.symm hack)
        (fun j d hj hjd => (h.rest.chan j d hjd).ackOther (by rw [← hi]; exact ids_ne h.rest hc hjd (Ne.symm hj)))
        (by omega) (fun _ => ⟨⟨i, c, hc, hi⟩, ha, hd⟩) ?_
      refine ⟨fun z => absurd z (by omega), fun _ z => absurd z (by omega), fun _ => ?_, fun _ => by rw [e1],
        fun z => absurd z (by omega), fun z => absurd z (by omega)⟩
      rw [e1]
      exact ⟨rfl, p4, rfl, hf, i, { c with sentUnacked := c.sentUnacked - x.a }, rfl,
        by simp only; rw [set_get hc, if_pos rfl], hi⟩
  have h8 := key _ rfl
  split
  · obtain ⟨m', e1, e2, e3, e4⟩ := h8.addWr (i := i) (c := { c with sentUnacked := c.sentUnacked - x.a })
      (by simp only; rw [set_get hc, if_pos rfl])
    refine ⟨m', ?_, ⟨by rw [e3]; exact hst, by rw [e4], fun _ => ⟨R, e2⟩, fun z => absurd z (by omega)⟩⟩
    rw [← e1]
    simp only [Mux.set, p4]
  · refine ⟨_, rfl, ⟨hst, rfl, fun _ => ⟨R, ?_⟩, fun z => absurd z (by omega)⟩⟩
    refine key _ ?_
    simp only [Mux.set, p4]

theorem Side.recvLenHigh (h : Side m log Q inn x 8 R P) (hst : m.state = .opened) {i : Nat} {c : Chan}
    (hc : m.chans[i]? = some c) (hi : c.id = x.r) (ha : x.a < 4294967296) (hd : x.d.length < 65536) (e : Env) :
    ∃ m', m.rxByte (x.msg.bytes.getD 8 0) e = some m' ∧ Recv m m' log Q inn x 8 P := by
  obtain ⟨p1, p2, p3, p4, p5⟩ := h.rest.parse.body (by omega)
  have p6 := h.rest.parse.eight rfl
  have hs := h.rest.chan i c hc
  rw [rxByte_open hst, if_neg (by simp [p1]), if_pos p6]
  refine ⟨_, rfl, ⟨hst, rfl, fun _ => ⟨R, ?_⟩, fun z => absurd z (by omega)⟩⟩
  refine ⟨h.tx.congr rfl rfl rfl rfl rfl rfl, fun j d hj => h.svc j d hj, ?_⟩
  refine h.rest.recv (c' := c) hc rfl rfl rfl rfl (h.rest.stat _ _ hc) (set_self hc).symm rfl h.rest.hdr rfl rfl hs.nine
    (fun j d _ hj => (h.rest.chan j d hj).nine) (by omega) (fun _ => ⟨⟨i, c, hc, hi⟩, ha, hd⟩) ?_
  refine ⟨fun z => absurd z (by omega), fun _ z => absurd z (by omega), fun _ => ⟨p1, p2, p3, p4, p5⟩,
    fun z => absurd z (by omega), fun _ => ⟨rfl, ?_⟩, fun z => absurd z (by omega)⟩
  have hb : x.msg.bytes.getD 8 0 = UInt8.ofNat (x.d.length / 256) := rfl
  simp only [hb, toNat_ofNat]
  omega

theorem checkRead_inHdr (m : Mux) (i : Nat) (ans : List Ans) (p : Nat) :
    ({ m with inHdr := true, dataPos := p } : Mux).checkRead i ans
      = (m.checkRead i ans).map (fun m => { m with inHdr := true, dataPos := p }) := by
  rw [Mux.checkRead, Mux.checkRead]
  simp only
  cases m.chans[i]? with
  | none => rfl
  | some c =>
    simp only
    cases c.readLoop (ans.length + 2) ans with
    | none => rfl
    | some c =>
      simp only
      split
      · rw [Mux.addWr, Mux.addWr]
        simp only [Mux.set]
        cases (m.chans.set i c)[i]? with
        | none => rfl
        | some d =>
          simp only
          split
          · rfl
          · split <;> rfl
      · rfl

/-- The end of a message: the data is offered to the user. -/
theorem Side.dataDone {m : Mux} {inn : List Dat} {R : Nat → List Frame} {p : Nat} {x' : Dat}
    (h : Side { m with inHdr := true, dataPos := p } log Q inn x' 0 R P)
    (hst : m.state = .opened) {i : Nat} {c : Chan} (hc : m.chans[i]? = some c) (e : Env) :
    ∃ m' R', m.dataDone i e = some m' ∧ m'.state = .opened ∧ m'.out = m.out ∧ Side m' log Q inn x' 0 R' P := by
  have key : ∀ m1 m2 : Mux, m2 = { m1 with inHdr := true } →
      Side { m1 with inHdr := true, dataPos := p } log Q inn x' 0 R P → Side m2 log Q inn x' 0 R P := by
    intro m1 m2 e1 h
    subst e1
    refine ⟨h.tx.congr rfl rfl rfl rfl rfl rfl, fun j d hj => h.svc j d hj, ?_⟩
    refine ⟨h.rest.xm, h.rest.count, h.rest.par, h.rest.stat, h.rest.hdr, h.rest.wsize, h.rest.mw, h.rest.mr, h.rest.find,
      h.rest.rids, h.rest.chan, h.rest.logC, h.rest.kx, h.rest.xOk, ⟨h.rest.parse.zero, ?_, ?_, ?_, ?_, ?_⟩⟩ <;> intros <;> omega
  rw [Mux.dataDone]
  by_cases hz : m.dataSize ≠ 0
  · rw [if_pos hz]
    obtain ⟨m', r', e1, e2, e3, e4⟩ := h.checkRead (i := i) (c := c) hc e.reads
    rw [checkRead_inHdr] at e1
    cases hm : m.checkRead i e.reads with
    | none => rw [hm] at e1; cases e1
    | some m1 =>
      rw [hm] at e1
      have e1 := Option.some.inj e1
      simp only
      subst e1
      refine ⟨_, upd R i r', rfl, ?_, e4, ?_⟩
      · exact e3.trans hst
      · refine ⟨e2.tx.congr rfl rfl rfl rfl rfl rfl, fun j d hj => e2.svc j d hj, ?_⟩
        refine ⟨e2.rest.xm, e2.rest.count, e2.rest.par, e2.rest.stat, e2.rest.hdr, e2.rest.wsize, e2.rest.mw, e2.rest.mr,
          e2.rest.find, e2.rest.rids, e2.rest.chan, e2.rest.logC, e2.rest.kx, e2.rest.xOk,
          ⟨e2.rest.parse.zero, ?_, ?_, ?_, ?_, ?_⟩⟩ <;> intros <;> omega
  · rw [if_neg hz]
    exact ⟨_, R, rfl, hst, rfl, key m _ rfl h⟩

theorem Side.recvLen (h : Side m log Q inn x 9 R P) (hst : m.state = .opened) {i : Nat} {c : Chan}
    (hc : m.chans[i]? = some c) (hi : c.id = x.r) (ha : x.a < 4294967296) (hd : x.d.length < 65536)
    (hroom : x.d ≠ [] → c.rd.len + c.recvUnacked + (x.d.length + 3) ≤ P.mr) (e : Env) :
    ∃ m', m.rxByte (x.msg.bytes.getD 9 0) e = some m' ∧ Recv m m' log Q inn x 9 P := by
  obtain ⟨p1, p2, p3, p4, i', c', p5, p6, p7⟩ := h.rest.parse.body (by omega)
  obtain ⟨p8, p9⟩ := h.rest.parse.nine rfl
  have hs := h.rest.chan i c hc
  have hii : i' = i := by
    have h1 := h.rest.find i' c' p6
    have h2 := h.rest.find i c hc
    rw [p7, ← hi, h2] at h1
    exact (Option.some.inj h1).symm
  subst hii
  have hb : (x.msg.bytes.getD 9 0).toNat = x.d.length % 256 := by
    have : x.msg.bytes.getD 9 0 = UInt8.ofNat x.d.length := rfl
    rw [this, toNat_ofNat]
  have hsz : m.dataSize + (x.msg.bytes.getD 9 0).toNat = x.d.length := by rw [hb, p9]; omega
  rw [rxByte_open hst, if_neg (by simp [p1]), if_neg (by omega), if_pos p8, Mux.rxLen]
  simp only [hsz, p5, hc, p2]
  rw [if_neg (by omega), if_pos trivial]
  by_cases hz : x.d.length = 0
  · rw [if_pos hz]
    have hdn : x.d = [] := List.length_eq_zero_iff.mp hz
    have hside : ∀ x', Side ({ ({ m with dataSize := x.d.length, dataPos := 2 } : Mux) with inHdr := true, dataPos := 2 }) log Q
        (inn ++ [x]) x' 0 R P := by
      intro x'
      refine ⟨h.tx.congr rfl rfl rfl rfl rfl rfl, fun j d hj => h.svc j d hj, ?_⟩
      refine h.rest.recv (c' := c) hc rfl rfl rfl rfl (h.rest.stat _ _ hc) (set_self hc).symm rfl h.rest.hdr rfl rfl
        (hs.skip (by omega) (Or.inr ⟨hdn, by omega⟩))
        (fun j d _ hj => (h.rest.chan j d hj).skip (by omega) (Or.inr ⟨hdn, by omega⟩)) (by omega)
        (fun z => absurd z (by omega)) ?_
      refine ⟨fun _ => ⟨rfl, p3⟩, ?_, ?_, ?_, ?_, ?_⟩ <;> intros <;> omega
    obtain ⟨m', R', e1, e2, e3, e4⟩ := Side.dataDone (hside x) hst hc e
    refine ⟨m', ?_, ⟨e2, e3, fun z => absurd z (by omega), fun _ => ⟨R', fun x' => e4.choose x'⟩⟩⟩
    simp only [p5, p2] at e1
    exact e1
  · rw [if_neg hz]
    have hrm := hroom (by intro z; rw [z] at hz; exact hz rfl)
    rw [← h.rest.par] at hrm
    have hsize := hs.size
    rw [if_neg (by omega), p4]
    obtain ⟨rd', e1, e2⟩ := hs.length hi.symm hrm (c.rcv ++ [(x.f, [])])
    simp only [e1]
    refine ⟨_, rfl, ⟨hst, rfl, fun _ => ⟨R, ?_⟩, fun z => absurd z (by omega)⟩⟩
    refine ⟨?_, ?_, ?_⟩
    · exact (h.tx.set' (c' := { c with rd := rd', rcv := c.rcv ++ [(x.f, [])] }) hc rfl rfl rfl rfl (Or.inl rfl) rfl
        rfl).congr rfl rfl rfl rfl rfl rfl
    · have := h.svc.set (c' := { c with rd := rd', rcv := c.rcv ++ [(x.f, [])] }) hc (h.svc _ c hc)
      exact fun j d hj => this j d hj
    · refine h.rest.recv (c' := { c with rd := rd', rcv := c.rcv ++ [(x.f, [])] }) hc rfl rfl rfl rfl
        ((h.rest.stat _ _ hc).congr rfl rfl rfl (fun h => h) rfl) rfl
        rfl h.rest.hdr rfl rfl e2
        (fun j d hj hjd => (h.rest.chan j d hjd).other (by omega)
          (by rw [← hi]; exact ids_ne h.rest hc hjd (Ne.symm hj)) (by omega))
        (by omega) (fun _ => ⟨⟨i', c, hc, hi⟩, ha, hd⟩) ?_
      refine ⟨fun z => absurd z (by omega), fun _ z => absurd z (by omega), fun _ => ?_, fun z => absurd z (by omega),
        fun z => absurd z (by omega), fun _ => ⟨rfl, rfl⟩⟩
      exact ⟨p1, rfl, p3, p4, i', { c with rd := rd', rcv := c.rcv ++ [(x.f, [])] }, rfl,
        by simp only [Mux.set]; rw [set_get hc, if_pos rfl], hi⟩

theorem Side.recvBody (h : Side m log Q inn x k R P) (hst : m.state = .opened) (hk : 10 ≤ k) {i : Nat} {c : Chan}
    (hc : m.chans[i]? = some c) (hi : c.id = x.r) (ha : x.a < 4294967296) (hd : x.d.length < 65536)
    (ho : oobFlag x.f = true → c.doOob = true) (e : Env) :
    ∃ m', m.rxByte (x.msg.bytes.getD k 0) e = some m' ∧ Recv m m' log Q inn x k P := by
  obtain ⟨p1, p2, p3, p4, i', c', p5, p6, p7⟩ := h.rest.parse.body (by omega)
  obtain ⟨p8, p9⟩ := h.rest.parse.ten hk
  have hs := h.rest.chan i c hc
  have hkx := h.rest.kx
  have hii : i' = i := by
    have h1 := h.rest.find i' c' p6
    have h2 := h.rest.find i c hc
    rw [p7, ← hi, h2] at h1
    exact (Option.some.inj h1).symm
  subst hii
  have hb : x.msg.bytes.getD k 0 = x.d[k - 10]'(by omega) := by
    rw [Dat.bytes, List.getD_eq_getElem?_getD, List.getElem?_append_right (by simp only [List.length_cons, List.length_nil]; omega)]
    simp only [List.length_cons, List.length_nil]
    rw [List.getElem?_eq_getElem (by omega)]
    rfl
  rw [rxByte_open hst, if_neg (by simp [p1]), if_neg (by omega), if_neg (by omega), Mux.rxBody]
  simp only [p5, hc, p2]
  rw [if_neg (by omega), if_pos trivial, hb]
  obtain ⟨rd', e1, e2, e3, e4⟩ := hs.store hi.symm hk hkx
  simp only [e1]
  generalize addLast c.rcv _ = rcv
  have htx := h.tx.set' (c' := { c with rd := rd', rcv := rcv }) hc rfl rfl rfl rfl (Or.inl rfl) rfl rfl
  have hsv := h.svc.set (c' := { c with rd := rd', rcv := rcv }) hc (h.svc _ c hc)
  have hst' := (h.rest.stat _ _ hc).congr (c' := { c with rd := rd', rcv := rcv }) rfl rfl rfl (fun h => h) rfl
  by_cases hl : k + 1 < 10 + x.d.length
  · rw [if_pos (by omega)]
    refine ⟨_, rfl, ⟨hst, rfl, fun _ => ⟨R, ?_⟩, fun z => absurd z (by omega)⟩⟩
    refine ⟨htx.congr rfl rfl rfl rfl rfl rfl, fun j d hj => hsv j d hj, ?_⟩
    refine h.rest.recv (c' := { c with rd := rd', rcv := rcv }) hc rfl rfl rfl rfl hst' rfl rfl h.rest.hdr rfl rfl
      (hs.more hi.symm hk hl rcv e2 e3 e4)
      (fun j d hj hjd => (h.rest.chan j d hjd).other (by omega)
          (by rw [← hi]; exact ids_ne h.rest hc hjd (Ne.symm hj)) (by omega))
      hl (fun _ => ⟨⟨i', c, hc, hi⟩, ha, hd⟩) ?_
    refine ⟨fun z => absurd z (by omega), fun _ z => absurd z (by omega), fun _ => ?_, fun z => absurd z (by omega),
        fun z => absurd z (by omega), fun _ => ⟨by simp only; omega, p9⟩⟩
    exact ⟨p1, by first | exact p2 | rfl, p3, p4, i', { c with rd := rd', rcv := rcv }, by first | exact p5 | rfl,
      by simp only [Mux.set]; rw [set_get hc, if_pos rfl], hi⟩
  · rw [if_neg (by omega)]
    have hside : ∀ x', Side ({ (m.set i' { c with rd := rd', rcv := rcv }) with inHdr := true, dataPos := 2 }) log Q
        (inn ++ [x]) x' 0 (upd R i' (R i' ++ [(x.f, x.d)])) P := by
      intro x'
      refine ⟨htx.congr rfl rfl rfl rfl rfl rfl, fun j d hj => hsv j d hj, ?_⟩
      refine h.rest.recv (c' := { c with rd := rd', rcv := rcv }) hc rfl rfl rfl rfl hst' rfl rfl h.rest.hdr rfl rfl
        (by rw [upd_same]; exact hs.last hi.symm hk (by omega) hd ho rcv e2 e3 e4)
        (fun j d hj hjd => by
          rw [upd_other _ _ hj]
          exact (h.rest.chan j d hjd).skip (by omega) (Or.inl (by rw [← hi]; exact ids_ne h.rest hc hjd (Ne.symm hj))))
        (by omega) (fun z => absurd z (by omega)) ?_
      refine ⟨fun _ => ⟨rfl, p3⟩, ?_, ?_, ?_, ?_, ?_⟩ <;> intros <;> omega
    obtain ⟨m', R', f1, f2, f3, f4⟩ := Side.dataDone (hside x) hst
      (c := { c with rd := rd', rcv := rcv }) (by simp only [Mux.set]; rw [set_get hc, if_pos rfl]) e
    exact ⟨m', f1, ⟨f2, f3, fun z => absurd z (by omega), fun _ => ⟨R', fun x' => f4.choose x'⟩⟩⟩

/-- One byte of a message. -/
theorem Side.recv (h : Side m log Q inn x k R P) (hst : m.state = .opened) {i : Nat} {c : Chan}
    (hc : m.chans[i]? = some c) (hi : c.id = x.r) (ha : x.a < 4294967296) (hd : x.d.length < 65536)
    (hack : k = 7 → x.a ≤ c.sentUnacked)
    (hroom : k = 9 → x.d ≠ [] → c.rd.len + c.recvUnacked + (x.d.length + 3) ≤ P.mr)
    (ho : 10 ≤ k → oobFlag x.f = true → c.doOob = true) (e : Env) :
    ∃ m', m.rxByte (x.msg.bytes.getD k 0) e = some m' ∧ Recv m m' log Q inn x k P := by
  by_cases h0 : k = 0
  · subst h0; exact h.recvFirst hst hc hi ha hd e
  by_cases h1 : k < 7
  · exact h.recvHdr hst (by omega) h1 hc hi ha hd e
  by_cases h7 : k = 7
  · subst h7; exact h.recvAck hst hc hi ha hd (hack rfl) e
  by_cases h8 : k = 8
  · subst h8; exact h.recvLenHigh hst hc hi ha hd e
  by_cases h9 : k = 9
  · subst h9; exact h.recvLen hst hc hi ha hd (hroom rfl) e
  exact h.recvBody hst (by omega) hc hi ha hd (ho (by omega)) e

end recv

end Gensio.Mux
