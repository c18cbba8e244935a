import Verif.Props.MuxBad

/-!
# C35, C68, C69: headers, other channels and the write callback of the mux
-/

namespace Gensio.Mux

/-! ## C35: headers -/

/-- C35: the size of a header in bytes is compared with its size in words (`mux_msg_hdr_sizes`, :145, :2283), so a data
message with a header of four bytes is accepted and its acknowledgement is taken from the message before: 4 of 8 bytes are
acknowledged, then a short header comes, and nothing is unacknowledged any more. -/
theorem C35_short_header_violated :
    ((smallA.run ([.write 0 [[1]] false false, .write 0 [[2]] false false, .writeReady [some 99, some 99]]
        ++ Mux.recvs [0x52, 0, 0, 0, 0, 0, 0, 4, 0, 0])).map (fun m => (m.state, m.chans.map Chan.sentUnacked))
      = some (.opened, [4]))
    ∧ ((smallA.run ([.write 0 [[1]] false false, .write 0 [[2]] false false, .writeReady [some 99, some 99]]
        ++ Mux.recvs ([0x52, 0, 0, 0, 0, 0, 0, 4, 0, 0] ++ [0x51, 0, 0, 0, 0, 0]))).map
          (fun m => (m.state, m.chans.map Chan.sentUnacked)) = some (.opened, [0])) := by
  decide +kernel

/-- A mux with another header buffer. -/
def Mux.wh (m : Mux) (h : List UInt8 × Nat) : Mux := { m with hdr := h.1, hdrPos := h.2 }

theorem addWr_wh (m : Mux) (h : List UInt8 × Nat) (i : Nat) : (m.wh h).addWr i = (m.addWr i).map (·.wh h) := by
  rw [Mux.addWr, Mux.addWr]
  simp only [Mux.wh]
  cases m.chans[i]? with
  | none => rfl
  | some c =>
    simp only
    by_cases h1 : c.wrReady = true
    · rw [if_pos h1, if_pos h1]; rfl
    · rw [if_neg h1, if_neg h1]
      by_cases h2 : c.inWrlist = true
      · rw [if_pos h2, if_pos h2]; rfl
      · rw [if_neg h2, if_neg h2]; rfl

theorem set_wh (m : Mux) (h : List UInt8 × Nat) (i : Nat) (c : Chan) : (m.wh h).set i c = (m.set i c).wh h := rfl

theorem checkRead_wh (m : Mux) (h : List UInt8 × Nat) (i : Nat) (ans : List Ans) :
    (m.wh h).checkRead i ans = (m.checkRead i ans).map (·.wh h) := by
  rw [Mux.checkRead, Mux.checkRead]
  simp only [show (m.wh h).chans = m.chans from rfl, set_wh, addWr_wh]
  cases m.chans[i]? with
  | none => rfl
  | some c =>
    simp only
    cases c.readLoop (ans.length + 2) ans with
    | none => rfl
    | some c =>
      simp only
      split <;> rfl

theorem dataDone_wh (m : Mux) (h : List UInt8 × Nat) (i : Nat) (e : Env) :
    (m.wh h).dataDone i e = (m.dataDone i e).map (·.wh h) := by
  rw [Mux.dataDone, Mux.dataDone]
  simp only [show (m.wh h).dataSize = m.dataSize from rfl, checkRead_wh]
  by_cases h1 : m.dataSize ≠ 0
  · rw [if_pos h1, if_pos h1]
    cases m.checkRead i e.reads <;> rfl
  · rw [if_neg h1, if_neg h1]; rfl

theorem nextReq_wh (m : Mux) (h : List UInt8 × Nat) : (m.wh h).nextReq = m.nextReq.map (·.wh h) := by
  rw [Mux.nextReq, Mux.nextReq]
  simp only [show (m.wh h).openchans = m.openchans from rfl, show (m.wh h).chans = m.chans from rfl,
    show (m.wh h).opencount = m.opencount from rfl]
  cases m.openchans with
  | nil => simp only; split <;> rfl
  | cons i l =>
    simp only
    cases m.chans[i]? with
    | none => rfl
    | some c => exact addWr_wh (({ m with openchans := l } : Mux).set i { c with inOpenChan := false }) h i

theorem nextReq_wh' {a b : Mux} {h : List UInt8 × Nat} (e : a = b.wh h) : a.nextReq = b.nextReq.map (·.wh h) := by
  rw [e, nextReq_wh]
theorem addWr_wh' {a b : Mux} {h : List UInt8 × Nat} (e : a = b.wh h) (i : Nat) : a.addWr i = (b.addWr i).map (·.wh h) := by
  rw [e, addWr_wh]

theorem newDone_wh (m : Mux) (h : List UInt8 × Nat) (i : Nat) (c : Chan) (e : Env) :
    (m.wh h).newDone i c e = (m.newDone i c e).map (·.wh h) := by
  rw [Mux.newDone, Mux.newDone]
  simp only [show (m.wh h).state = m.state from rfl, show (m.wh h).xmit = m.xmit from rfl, set_wh]
  by_cases h1 : m.state = .waitOpen
  · rw [if_pos h1, if_pos h1]; rfl
  rw [if_neg h1, if_neg h1]
  by_cases h2 : (!m.xmit.isEmpty) = true
  · rw [if_pos h2, if_pos h2]; rfl
  rw [if_neg h2, if_neg h2]
  by_cases h3 : e.newErr ≠ 0
  · rw [if_pos h3, if_pos h3]; rfl
  rw [if_neg h3, if_neg h3]
  by_cases h4 : c.service.length ≠ 0
  · rw [if_pos h4, if_pos h4]
    have := addWr_wh ((m.set i { c with state := .opened, recvUnacked := c.service.length }).sendRsp c.remoteId
      c.rd.data.length c.id 0) h i
    simp only [show ∀ (m : Mux) (a b c d : Nat), (m.wh h).sendRsp a b c d = (m.sendRsp a b c d).wh h from fun _ _ _ _ _ => rfl,
      this]
    cases ((m.set i { c with state := .opened, recvUnacked := c.service.length }).sendRsp c.remoteId
      c.rd.data.length c.id 0).addWr i <;> rfl
  · rw [if_neg h4, if_neg h4]; rfl

/-- Two buffers with the same first `n` bytes. -/
def Agree (n : Nat) (h h' : List UInt8) : Prop := ∀ i < n, h.getD i 0 = h'.getD i 0

theorem Agree.rd16 {n i : Nat} {h h' : List UInt8} (e : Agree n h h') (hi : i + 2 ≤ n) : rd16 h i = rd16 h' i := by
  rw [Mux.rd16, Mux.rd16, e i (by omega), e (i + 1) (by omega)]
theorem Agree.rd32 {n i : Nat} {h h' : List UInt8} (e : Agree n h h') (hi : i + 4 ≤ n) : rd32 h i = rd32 h' i := by
  rw [Mux.rd32, Mux.rd32, e i (by omega), e (i + 1) (by omega), e (i + 2) (by omega), e (i + 3) (by omega)]
theorem Agree.set {n : Nat} {h h' : List UInt8} (e : Agree n h h') (hl : h.length = h'.length) (b : UInt8) :
    Agree (n + 1) (h.set n b) (h'.set n b) := by
  intro i hi
  by_cases h1 : i = n
  · subst h1
    by_cases h2 : i < h.length
    · simp [List.getD_eq_getElem?_getD, h2, hl ▸ h2]
    · have : ¬ i < h'.length := hl ▸ h2
      simp [List.getD_eq_getElem?_getD, h2, this]
  · have := e i (by omega)
    simp only [List.getD_eq_getElem?_getD] at this ⊢
    rw [List.getElem?_set_ne (by omega), List.getElem?_set_ne (by omega)]
    exact this

theorem onRsp_wh (m : Mux) (h : List UInt8 × Nat) (e : Agree 12 m.hdr h.1) : (m.wh h).onRsp = m.onRsp.map (·.wh h) := by
  rw [Mux.onRsp, Mux.onRsp]
  simp only [show (m.wh h).hdr = h.1 from rfl, ← e.rd16 (show 2 + 2 ≤ 12 by omega), ← e.rd32 (show 4 + 4 ≤ 12 by omega),
    ← e.rd16 (show 8 + 2 ≤ 12 by omega), ← e.rd16 (show 10 + 2 ≤ 12 by omega),
    show ∀ n, (m.wh h).find n = m.find n from fun _ => rfl]
  cases m.find (rd16 m.hdr 2) with
  | none => rfl
  | some i =>
    simp only [show (m.wh h).chans = m.chans from rfl]
    cases m.chans[i]? with
    | none => rfl
    | some c =>
      simp only [show (m.wh h).state = m.state from rfl, show (m.wh h).opencount = m.opencount from rfl]
      by_cases h1 : c.state ≠ .inOpen ∧ c.state ≠ .inOpenClose
      · rw [if_pos h1, if_pos h1]; rfl
      rw [if_neg h1, if_neg h1]
      by_cases h2 : m.state ≠ .inOpen ∧ m.state ≠ .opened
      · rw [if_pos h2, if_pos h2]; rfl
      rw [if_neg h2, if_neg h2]
      by_cases h3 : rd32 m.hdr 4 ≤ 128
      · rw [if_pos h3, if_pos h3]; rfl
      rw [if_neg h3, if_neg h3]
      by_cases h4 : m.opencount = 0
      · rw [if_pos h4, if_pos h4]; rfl
      rw [if_neg h4, if_neg h4]
      by_cases h5 : rd16 m.hdr 10 ≠ 0
      · rw [if_pos h5, if_pos h5]
        exact nextReq_wh' (by rfl)
      rw [if_neg h5, if_neg h5]
      by_cases h6 : c.state = .inOpenClose
      · rw [if_pos h6, if_pos h6]
        have := addWr_wh (({ m with state := .opened, sending := none, opencount := m.opencount - 1 } : Mux).set i
          { c with remoteId := rd16 m.hdr 8, window := rd32 m.hdr 4, err := 0, state := .inClose, sendClose := true }) h i
        simp only [Mux.wh, Mux.set] at this ⊢
        rw [this]
        cases Mux.addWr _ i with
        | none => rfl
        | some m2 => exact nextReq_wh m2 h
      · rw [if_neg h6, if_neg h6]
        exact nextReq_wh' (by rfl)

theorem onClose_wh (m : Mux) (h : List UInt8 × Nat) (e : Agree 8 m.hdr h.1) : (m.wh h).onClose = m.onClose.map (·.wh h) := by
  rw [Mux.onClose, Mux.onClose]
  simp only [show (m.wh h).hdr = h.1 from rfl, ← e.rd16 (show 2 + 2 ≤ 8 by omega), ← e.rd16 (show 4 + 2 ≤ 8 by omega),
    show ∀ n, (m.wh h).find n = m.find n from fun _ => rfl]
  cases m.find (rd16 m.hdr 2) with
  | none => rfl
  | some i =>
    simp only [show (m.wh h).chans = m.chans from rfl]
    cases m.chans[i]? with
    | none => rfl
    | some c =>
      simp only
      split
      · rfl
      · split
        · rfl
        · exact addWr_wh' (by rfl) i

theorem onData_wh (m : Mux) (h : List UInt8 × Nat) (e : Agree 8 m.hdr h.1) : (m.wh h).onData = m.onData.map (·.wh h) := by
  rw [Mux.onData, Mux.onData]
  simp only [show (m.wh h).hdr = h.1 from rfl, ← e.rd16 (show 2 + 2 ≤ 8 by omega), ← e.rd32 (show 4 + 4 ≤ 8 by omega),
    show ∀ n, (m.wh h).find n = m.find n from fun _ => rfl]
  cases m.find (rd16 m.hdr 2) with
  | none => rfl
  | some i =>
    simp only [show (m.wh h).chans = m.chans from rfl]
    cases m.chans[i]? with
    | none => rfl
    | some c =>
      simp only
      split
      · rfl
      · split
        · rfl
        · split
          · exact addWr_wh' (by rfl) i
          · rfl

theorem onNew_wh (m : Mux) (h : List UInt8 × Nat) (ev : Env) (e : Agree 8 m.hdr h.1) : (m.wh h).onNew ev = (m.onNew ev).map (·.wh h) := by
  rw [Mux.onNew, Mux.onNew]
  simp only [show (m.wh h).hdr = h.1 from rfl, ← e.rd16 (show 2 + 2 ≤ 8 by omega), ← e.rd32 (show 4 + 4 ≤ 8 by omega),
    show (m.wh h).state = m.state from rfl, show (m.wh h).chan0 = m.chan0 from rfl, show (m.wh h).chans = m.chans from rfl,
    show ∀ n, (m.wh h).hasRemote n = m.hasRemote n from fun _ => rfl]
  by_cases h1 : m.state = .waitOpen
  · rw [if_pos h1, if_pos h1]
    cases m.chan0 with
    | none => rfl
    | some i =>
      simp only
      cases m.chans[i]? with
      | none => rfl
      | some c => simp only; split <;> rfl
  · rw [if_neg h1, if_neg h1]
    split
    · rfl
    · cases ev.newId with
      | none => rfl
      | some id => simp only; split <;> rfl

theorem onInit_wh (m : Mux) (h : List UInt8 × Nat) : (m.wh h).onInit = m.onInit.map (·.wh h) := by
  rw [Mux.onInit, Mux.onInit]
  simp only [show (m.wh h).state = m.state from rfl, show (m.wh h).openchans = m.openchans from rfl]
  by_cases h1 : m.state ≠ .uninit
  · rw [if_pos h1, if_pos h1]; rfl
  rw [if_neg h1, if_neg h1]
  split
  · rfl
  · exact nextReq_wh' (by rfl)

theorem onInit_wh' {a b : Mux} {h : List UInt8 × Nat} (e : a = b.wh h) : a.onInit = b.onInit.map (·.wh h) := by
  rw [e, onInit_wh]

theorem onHdr_wh (m : Mux) (h : List UInt8) (p : Nat) (ev : Env) (e : Agree (4 * hdrWords.getD m.msgid 0) m.hdr h) :
    (m.wh (h, p)).onHdr ev = (m.onHdr ev).map (·.wh (h, 0)) := by
  rw [Mux.onHdr, Mux.onHdr]
  simp only [show (m.wh (h, p)).msgid = m.msgid from rfl, show (m.wh (h, p)).state = m.state from rfl]
  by_cases h1 : m.msgid = 1
  · rw [if_pos h1, if_pos h1]; exact onInit_wh' (by rfl)
  rw [if_neg h1, if_neg h1]
  by_cases h2 : m.state = .uninit
  · rw [if_pos h2, if_pos h2]; rfl
  rw [if_neg h2, if_neg h2]
  by_cases h3 : m.msgid = 2
  · rw [if_pos h3, if_pos h3]
    rw [h3] at e
    exact onNew_wh { m with hdrPos := 0 } (h, 0) ev e
  rw [if_neg h3, if_neg h3]
  by_cases h4 : m.msgid = 3
  · rw [if_pos h4, if_pos h4]
    rw [h4] at e
    exact onRsp_wh { m with hdrPos := 0 } (h, 0) e
  rw [if_neg h4, if_neg h4]
  by_cases h5 : m.msgid = 4
  · rw [if_pos h5, if_pos h5]
    rw [h5] at e
    exact onClose_wh { m with hdrPos := 0 } (h, 0) e
  rw [if_neg h5, if_neg h5]
  by_cases h6 : m.msgid = 5
  · rw [if_pos h6, if_pos h6]
    rw [h6] at e
    exact onData_wh { m with hdrPos := 0 } (h, 0) e
  rw [if_neg h6, if_neg h6]; rfl

theorem Agree.refl (n : Nat) (h : List UInt8) : Agree n h h := fun _ _ => rfl

/-- Handling a header does not change the bytes of the header. -/
theorem onHdr_hdr {m m' : Mux} {ev : Env} (e : m.onHdr ev = some m') : m'.hdr = m.hdr ∧ m'.hdrPos = 0 := by
  have := onHdr_wh m m.hdr m.hdrPos ev (Agree.refl _ _)
  rw [show m.wh (m.hdr, m.hdrPos) = m from rfl, e] at this
  have := Option.some.inj this
  constructor
  · rw [this]; rfl
  · rw [this]; rfl

theorem newDone_wh' {a b : Mux} {h : List UInt8 × Nat} (e : a = b.wh h) (i : Nat) (c : Chan) (ev : Env) :
    a.newDone i c ev = (b.newDone i c ev).map (·.wh h) := by rw [e, newDone_wh]
theorem dataDone_wh' {a b : Mux} {h : List UInt8 × Nat} (e : a = b.wh h) (i : Nat) (ev : Env) :
    a.dataDone i ev = (b.dataDone i ev).map (·.wh h) := by rw [e, dataDone_wh]

theorem rxLen_wh (m : Mux) (h : List UInt8 × Nat) (b : UInt8) (ev : Env) (e : Agree 2 m.hdr h.1) :
    (m.wh h).rxLen b ev = (m.rxLen b ev).map (·.wh h) := by
  rw [Mux.rxLen, Mux.rxLen]
  simp only [show (m.wh h).curr = m.curr from rfl, show (m.wh h).chans = m.chans from rfl,
    show (m.wh h).dataSize = m.dataSize from rfl, show (m.wh h).msgid = m.msgid from rfl,
    show (m.wh h).hdr = h.1 from rfl, ← e 1 (by omega)]
  cases m.curr with
  | none => rfl
  | some i =>
    simp only
    cases m.chans[i]? with
    | none => rfl
    | some c =>
      simp only
      by_cases h1 : m.msgid = 2
      · rw [if_pos h1, if_pos h1]
        by_cases h2 : m.dataSize + b.toNat = 0
        · rw [if_pos h2, if_pos h2]
          exact newDone_wh' (by rfl) i _ ev
        · rw [if_neg h2, if_neg h2]; rfl
      rw [if_neg h1, if_neg h1]
      by_cases h3 : m.msgid = 5
      · rw [if_pos h3, if_pos h3]
        by_cases h2 : m.dataSize + b.toNat = 0
        · rw [if_pos h2, if_pos h2]
          exact dataDone_wh' (by rfl) i ev
        rw [if_neg h2, if_neg h2]
        split
        · rfl
        · cases c.rd.add (m.hdr.getD 1 0 :: be16 (m.dataSize + b.toNat)) <;> rfl
      · rw [if_neg h3, if_neg h3]; rfl

theorem rxBody_wh (m : Mux) (h : List UInt8 × Nat) (b : UInt8) (ev : Env) :
    (m.wh h).rxBody b ev = (m.rxBody b ev).map (·.wh h) := by
  rw [Mux.rxBody, Mux.rxBody]
  simp only [show (m.wh h).curr = m.curr from rfl, show (m.wh h).chans = m.chans from rfl,
    show (m.wh h).dataSize = m.dataSize from rfl, show (m.wh h).dataPos = m.dataPos from rfl,
    show (m.wh h).msgid = m.msgid from rfl, set_wh, newDone_wh, dataDone_wh]
  cases m.curr with
  | none => rfl
  | some i =>
    simp only
    cases m.chans[i]? with
    | none => rfl
    | some c =>
      simp only
      by_cases h1 : m.msgid = 2
      · rw [if_pos h1, if_pos h1]
        split
        · rfl
        · split <;> rfl
      rw [if_neg h1, if_neg h1]
      by_cases h3 : m.msgid = 5
      · rw [if_pos h3, if_pos h3]
        cases c.rd.add [b] with
        | none => rfl
        | some r => simp only; split <;> rfl
      · rw [if_neg h3, if_neg h3]; rfl

/-- Receiving bytes. -/
def Mux.rxAll (m : Mux) : List (UInt8 × Env) → Option Mux
  | [] => some m
  | (b, e) :: l =>
    match m.rxByte b e with
    | none => none
    | some m => m.rxAll l

/-- No header that starts in this stream is shorter than its message needs. -/
def Mux.longHdrs (m : Mux) : List (UInt8 × Env) → Bool
  | [] => true
  | (b, e) :: l =>
    (!(m.inHdr && m.hdrPos == 0) || decide (hdrWords.getD (b.toNat / 16) 0 ≤ b.toNat % 16)) &&
    match m.rxByte b e with
    | none => true
    | some m => m.longHdrs l

/-- What two muxes have in common that received the same since the start of the current message. -/
structure HdrInv (m : Mux) (h : List UInt8) : Prop where
  len : m.hdr.length = h.length
  head : m.inHdr = true → Agree m.hdrPos m.hdr h
  size : m.state ≠ .inClose → m.inHdr = true → m.hdrPos ≠ 0 →
    4 * hdrWords.getD m.msgid 0 ≤ m.hdrSize ∧ m.hdrPos < m.hdrSize
  body : m.inHdr = false → Agree 2 m.hdr h ∧ m.hdrPos = 0

theorem HdrInv.byte {m m1 : Mux} {h : List UInt8} (hi : HdrInv m h) {b : UInt8} {ev : Env}
    (hl : m.inHdr = true → m.hdrPos = 0 → hdrWords.getD (b.toNat / 16) 0 ≤ b.toNat % 16) (e : m.rxByte b ev = some m1) :
    ∃ h1, (m.wh (h, m.hdrPos)).rxByte b ev = some (m1.wh (h1, m1.hdrPos)) ∧ HdrInv m1 h1 := by
  rw [Mux.rxByte] at e ⊢
  simp only [show (m.wh (h, m.hdrPos)).state = m.state from rfl, show (m.wh (h, m.hdrPos)).inHdr = m.inHdr from rfl,
    show (m.wh (h, m.hdrPos)).dataPos = m.dataPos from rfl]
  by_cases h1 : m.state = .inClose ∨ m.state = .closed
  · rw [if_pos h1] at e ⊢
    obtain rfl := Option.some.inj e
    exact ⟨h, rfl, hi.len, hi.head, hi.size, hi.body⟩
  rw [if_neg h1] at e ⊢
  by_cases h2 : m.inHdr = true
  · rw [if_pos h2] at e ⊢
    have ha := hi.head h2
    rw [Mux.rxHdr] at e ⊢
    simp only [show (m.wh (h, m.hdrPos)).hdrPos = m.hdrPos from rfl, show (m.wh (h, m.hdrPos)).hdrSize = m.hdrSize from rfl]
    by_cases h3 : m.hdrPos = 0
    · rw [if_pos h3] at e ⊢
      have hl := hl h2 h3
      have hlen : (m.hdr.set 0 b).length = (h.set 0 b).length := by simp [hi.len]
      have hag : Agree 1 (m.hdr.set 0 b) (h.set 0 b) := by
        have := Agree.set (n := 0) (fun i hi => by omega) hi.len b
        exact this
      simp only at e ⊢
      by_cases h4 : b.toNat % 16 * 4 > 12
      · rw [if_pos h4] at e ⊢
        obtain rfl := Option.some.inj e
        exact ⟨h.set 0 b, rfl, hlen, fun _ => hag, fun z => absurd rfl z, fun z => absurd (h2.symm.trans z) (by simp)⟩
      rw [if_neg h4] at e ⊢
      by_cases h5 : b.toNat / 16 = 0 ∨ b.toNat / 16 > 5
      · rw [if_pos h5] at e ⊢
        obtain rfl := Option.some.inj e
        exact ⟨h.set 0 b, rfl, hlen, fun _ => hag, fun z => absurd rfl z, fun z => absurd (h2.symm.trans z) (by simp)⟩
      rw [if_neg h5] at e ⊢
      have hw : 1 ≤ hdrWords.getD (b.toNat / 16) 0 := by
        have : b.toNat / 16 = 1 ∨ b.toNat / 16 = 2 ∨ b.toNat / 16 = 3 ∨ b.toNat / 16 = 4 ∨ b.toNat / 16 = 5 := by omega
        rcases this with h | h | h | h | h <;> rw [h] <;> decide
      rw [if_neg (by omega)] at e ⊢
      obtain rfl := Option.some.inj e
      exact ⟨h.set 0 b, rfl, hlen, fun _ => hag, fun _ _ _ => ⟨by simp only; omega, by simp only; omega⟩,
        fun z => absurd (h2.symm.trans z) (by simp)⟩
    · rw [if_neg h3] at e ⊢
      have hsz := hi.size (fun z => h1 (Or.inl z)) h2 h3
      have hlen : (m.hdr.set m.hdrPos b).length = (h.set m.hdrPos b).length := by simp [hi.len]
      have hag : Agree (m.hdrPos + 1) (m.hdr.set m.hdrPos b) (h.set m.hdrPos b) := ha.set hi.len b
      by_cases h4 : 1 + m.hdrPos < m.hdrSize
      · rw [if_pos h4] at e ⊢
        obtain rfl := Option.some.inj e
        exact ⟨h.set m.hdrPos b, rfl, hlen, fun _ => hag, fun _ _ _ => ⟨hsz.1, by simp only; omega⟩,
          fun z => absurd (h2.symm.trans z) (by simp)⟩
      · rw [if_neg h4] at e ⊢
        obtain ⟨g1, g2⟩ := onHdr_hdr e
        have key := onHdr_wh { m with hdr := m.hdr.set m.hdrPos b } (h.set m.hdrPos b) m.hdrPos ev
          (fun i hi => hag i (by have := hsz.1; simp only at hi; omega))
        rw [e] at key
        refine ⟨h.set m.hdrPos b, by rw [g2]; exact key, by rw [g1]; exact hlen, ?_, ?_, ?_⟩
        · intro _; rw [g2]; intro i hi; omega
        · intro _ _ z; exact absurd g2 z
        · intro _
          refine ⟨?_, g2⟩
          rw [g1]
          intro i hi
          exact hag i (by omega)
  rw [if_neg h2] at e ⊢
  have h2 : m.inHdr = false := by simpa using h2
  obtain ⟨ha, hp⟩ := hi.body h2
  have fin : ∀ (f : Mux → Option Mux), f (m.wh (h, m.hdrPos)) = (f m).map (·.wh (h, m.hdrPos)) →
      (f m = (f m).map (·.wh (m.hdr, m.hdrPos))) → f m = some m1 →
      ∃ h1, f (m.wh (h, m.hdrPos)) = some (m1.wh (h1, m1.hdrPos)) ∧ HdrInv m1 h1 := by
    intro f e1 e2 e3
    rw [e3] at e1 e2
    have e2 := Option.some.inj e2
    have g1 : m1.hdr = m.hdr := by rw [e2]; rfl
    have g2 : m1.hdrPos = m.hdrPos := by rw [e2]; rfl
    refine ⟨h, by rw [g2]; exact e1, by rw [g1]; exact hi.len, ?_, ?_, ?_⟩
    · intro _; rw [g2, hp]; intro i hi; omega
    · intro _ _ z; rw [g2, hp] at z; exact absurd rfl z
    · intro _; rw [g1, g2]; exact ⟨ha, hp⟩
  by_cases h3 : m.dataPos = 0
  · rw [if_pos h3] at e ⊢
    obtain rfl := Option.some.inj e
    exact ⟨h, rfl, hi.len, hi.head, hi.size, hi.body⟩
  rw [if_neg h3] at e ⊢
  by_cases h4 : m.dataPos = 1
  · rw [if_pos h4] at e ⊢
    exact fin (fun m => m.rxLen b ev) (rxLen_wh m _ b ev ha) (rxLen_wh m (m.hdr, m.hdrPos) b ev (Agree.refl _ _)) e
  · rw [if_neg h4] at e ⊢
    exact fin (fun m => m.rxBody b ev) (rxBody_wh m _ b ev) (rxBody_wh m (m.hdr, m.hdrPos) b ev) e

/-- C35, partly: as long as no header is shorter than its message needs, what a mux does with a stream of bytes that starts
at the start of a message does not depend on what the header buffer held before: with any other content `h` the mux ends
in the same state, up to the header buffer.

Missing: shorter headers, which are accepted as well (`C35_short_header_violated`). -/
theorem C35_header_partial {m m1 : Mux} (h : List UInt8) (hlen : h.length = m.hdr.length) (h0 : m.inHdr = true)
    (hp : m.hdrPos = 0) (l : List (UInt8 × Env)) (hl : m.longHdrs l = true) (e : m.rxAll l = some m1) :
    ∃ h1, ({ m with hdr := h } : Mux).rxAll l = some { m1 with hdr := h1 } := by
  have key : ∀ (l : List (UInt8 × Env)) (m : Mux) (h : List UInt8), HdrInv m h → m.longHdrs l = true → m.rxAll l = some m1 →
      ∃ h1, (m.wh (h, m.hdrPos)).rxAll l = some { m1 with hdr := h1 } := by
    intro l
    induction l with
    | nil =>
      intro m h _ _ e
      obtain rfl := Option.some.inj e
      exact ⟨h, rfl⟩
    | cons x l ih =>
      obtain ⟨b, ev⟩ := x
      intro m h hi hl e
      rw [Mux.rxAll] at e ⊢
      rw [Mux.longHdrs, Bool.and_eq_true] at hl
      obtain ⟨hl1, hl2⟩ := hl
      cases hb : m.rxByte b ev with
      | none => rw [hb] at e; cases e
      | some m2 =>
        rw [hb] at e hl2
        obtain ⟨h2, e1, e2⟩ := hi.byte (by
          intro g1 g2
          rw [g1, g2] at hl1
          simpa using hl1) hb
        rw [e1]
        exact ih m2 h2 e2 hl2 e
  have := key l m h ⟨hlen.symm, fun _ i hi => by omega, fun _ _ z => absurd hp z, fun z => absurd (h0.symm.trans z) (by simp)⟩
    hl e
  rw [show m.wh (h, m.hdrPos) = { m with hdr := h } from rfl] at this
  exact this

/-- A data message with an acknowledgement, and a short one. -/
example :
    ({ smallA with chans := [{ smallChan 0 7 24 20 16 with sentUnacked := 8 }] } : Mux).longHdrs
        ([0x52, 0, 0, 0, 0, 0, 0, 4, 0, 1, 0x61].map (fun b => (b, {}))) = true
    ∧ (({ smallA with chans := [{ smallChan 0 7 24 20 16 with sentUnacked := 8 }] } : Mux).rxAll
        ([0x52, 0, 0, 0, 0, 0, 0, 4, 0, 1, 0x61].map (fun b => (b, {})))).map (fun m => m.chans.map Chan.sentUnacked) = some [4]
    ∧ smallA.longHdrs [(0x51, {})] = false := by decide +kernel

end Gensio.Mux
