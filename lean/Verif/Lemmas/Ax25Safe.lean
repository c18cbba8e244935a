import Verif.Lemmas.Ax25Seq

namespace Gensio.Ax25

/-- What keeps every access of the data path within its arrays. -/
structure Safe (c : Chan) : Prop where
  ww0 : 2 ≤ c.conf.writewindow
  ww1 : c.conf.writewindow ≤ 127
  rw0 : 0 < c.conf.readwindow
  rw1 : c.conf.readwindow ≤ 127
  wrl : c.wr.length = c.conf.writewindow
  rdl : c.rd.length = c.conf.readwindow
  wdat : ∀ d ∈ c.wr, d.data.length = c.conf.maxWrite
  rpos : c.readPos < c.conf.readwindow
  rlen : c.readLen < 256
  wpos : c.writePos < c.conf.writewindow
  wlen : c.writeLen ≤ c.conf.writewindow
  slen : c.sendLen ≤ c.writeLen
  wwin : c.writewindow ≤ c.conf.writewindow
  mw : c.maxWrite ≤ c.conf.maxWrite
  mod : c.modulo = 8 ∨ c.modulo = 128
  vs : c.vs < 256
  ext : c.extended ≤ 1
  ird : ∀ r, c.inRead = some r → r.idx < c.conf.readwindow
  live : c.inChans = true ↔ c.state ≠ .closed ∧ c.state ≠ .reportClose ∧ c.state ≠ .ioErr
  mwb : c.conf.maxWrite < 18446744073709551616

/-- The channel without the parts `Safe` does not mention. -/
def core (c : Chan) : Chan :=
  { c with cmdrsp := [], ackPending := 0, peerBsy := false, ownBsy := false, inRej := false, pollPending := false, dataPSent := false,
           retryCount := 0, err := 0, gotFirst := false, maxRetries := 0, vr := 0, va := 0, readEnabled := false, readwindow := 0 }

theorem safe_core {c : Chan} : Safe (core c) ↔ Safe c := by
  constructor <;> intro h <;> cases h <;> constructor <;> assumption

theorem Safe.of {c c' : Chan} (h : Safe c) (e : core c' = core c) : Safe c' := by
  rw [← safe_core, e]; exact safe_core.2 h

@[simp] theorem core_sendCr (c : Chan) (cmd pf ic ex) : core (sendCr c cmd pf ic ex) = core c := by
  unfold sendCr; split <;> rfl

@[simp] theorem core_sendCmd (c : Chan) (cmd pf) : core (sendCmd c cmd pf) = core c := core_sendCr ..

@[simp] theorem core_sendRsp (c : Chan) (cmd pf) : core (sendRsp c cmd pf) = core c := core_sendCr ..

@[simp] theorem core_sendSabm (c : Chan) : core (sendSabm c) = core c := by
  unfold sendSabm; repeat' split
  all_goals simp

@[simp] theorem core_sendAck (c : Chan) (pf ic) : core (sendAck c pf ic) = core c := by
  unfold sendAck; dsimp only
  split
  · rfl
  · split
    · rfl
    · rw [core_sendCr]; rfl

@[simp] theorem core_checkBusy (c : Chan) : core (checkBusy c) = core c := by
  unfold checkBusy
  split
  · rw [core_sendAck]; rfl
  · split
    · exact (core_sendAck _ _ _ : core (sendAck { c with ownBsy := false } true true) = _)
    · rfl

@[simp] theorem core_rxFinish (c : Chan) (pf) : core (rxFinish c pf) = core c := by
  unfold rxFinish; dsimp only
  split
  · rw [core_sendAck]; rfl
  · split
    · rw [core_sendAck]; rfl
    · rfl

theorem core_readExit (c : Chan) : core (readExit c) = core { c with inRead := none } := by
  unfold readExit
  split
  · rename_i h
    cases c; simp only at h; subst h; rfl
  · dsimp only
    split <;> simp

theorem Safe.noRead {c : Chan} (h : Safe c) : Safe { c with inRead := none } := by
  cases h; constructor <;> first | assumption | simp

theorem Safe.readExit {c : Chan} (h : Safe c) : Safe (readExit c) := h.noRead.of (core_readExit c)

theorem Safe.readLoop {c : Chan} (h : Safe c) : Safe (readLoop c) := by
  unfold Ax25.readLoop
  split
  · split
    · exact Safe.readExit (h.of (by rfl))
    · split
      · obtain ⟨a1, a2, a3, a4, a5, a6, a7, a8, a9, a10, a11, a12, a13, a14, a15, a16, a17, a18, a19, a20⟩ := h
        constructor <;> first | assumption | skip
        intro r hr
        cases hi : c.inRead with
        | none => simp [hi] at hr
        | some x => simp [hi] at hr; subst hr; exact a8
      · exact h.readExit
  · exact h.readExit

theorem Safe.deliverRead {c : Chan} (h : Safe c) (rx) : Safe (deliverRead c rx) := by
  unfold Ax25.deliverRead
  split
  · dsimp only; split
    · exact h.of (by simp)
    · exact h.of (by simp)
  · apply Safe.readLoop
    obtain ⟨a1, a2, a3, a4, a5, a6, a7, a8, a9, a10, a11, a12, a13, a14, a15, a16, a17, a18, a19, a20⟩ := h
    constructor <;> first | assumption | skip
    intro r hr; simp at hr; subst hr; exact a8

theorem Safe.setExtended {c : Chan} (h : Safe c) (e data) : Safe (setExtended c e data) := by
  have hp : Safe (Ax25.setExtended.plain e { c with maxRetries := c.conf.maxRetries }) := by
    unfold Ax25.setExtended.plain
    obtain ⟨a1, a2, a3, a4, a5, a6, a7, a8, a9, a10, a11, a12, a13, a14, a15, a16, a17, a18, a19, a20⟩ := h
    dsimp only
    split
    · constructor <;> first | assumption | (dsimp only; split <;> omega) | simp
    · constructor <;> first | assumption | (dsimp only; (repeat' split) <;> omega) | simp
  unfold Ax25.setExtended
  dsimp only
  split
  · rw [if_neg]
    · exact hp
    · have := h.ext; intro hh; omega
  · exact hp

theorem Safe.fallback {c : Chan} (h : Safe c) : Safe (fallback c) := by
  unfold Ax25.fallback
  have := h.ext
  rw [if_neg (by omega)]
  split
  · refine Safe.of (c := { c with extended := 0, modulo := 8, writewindow := 2, readwindow := 4 }) ?_ (by simp)
    cases h; constructor <;> first | assumption | (dsimp only; omega) | simp
  · exact h

theorem Safe.moved {c : Chan} (h : Safe c) {st : St} (hs : st = .closed ∨ st = .reportClose ∨ st = .ioErr) :
    Safe { c with state := st, inChans := false } := by
  cases h; constructor <;> first | assumption | skip
  rcases hs with rfl | rfl | rfl <;> simp

theorem moveToClosed_some {c : Chan} (h : c.inChans = true) : moveToClosed c = some { c with inChans := false } := by
  unfold moveToClosed; rw [if_pos h]

theorem doClose_safe {c : Chan} (h : Safe c) (hc : c.inChans = true) : ∃ c', doClose c = some c' ∧ Safe c' :=
  ⟨_, moveToClosed_some hc, h.moved (by simp)⟩

theorem doErrClose_safe {c : Chan} (h : Safe c) (hc : c.inChans = true) : ∃ c', doErrClose c = some c' ∧ Safe c' := by
  unfold doErrClose
  split
  · exact ⟨_, moveToClosed_some hc, h.moved (by simp)⟩
  · exact ⟨_, moveToClosed_some hc, h.moved (by simp)⟩
  · exact ⟨_, moveToClosed_some hc, h.moved (by simp)⟩
  · exact ⟨_, moveToClosed_some hc, h.moved (by simp)⟩
  · exact ⟨_, moveToClosed_some hc, h.moved (by simp)⟩

/-- A state in which a channel is in `base->chans`, without the two after a disconnect. -/
def Up (c : Chan) : Prop := c.state = .inOpen ∨ c.state = .opn ∨ c.state = .drain ∨ c.state = .inClose

theorem Safe.setState {c : Chan} (h : Safe c) {st : St} (hc : c.inChans = true) (hs : st ≠ .closed ∧ st ≠ .reportClose ∧ st ≠ .ioErr) :
    Safe { c with state := st } := by
  cases h; constructor <;> first | assumption | skip
  simp [hc, hs]

theorem Safe.resetData {c : Chan} (h : Safe c) : Safe (resetData c) := by
  obtain ⟨a1, a2, a3, a4, a5, a6, a7, a8, a9, a10, a11, a12, a13, a14, a15, a16, a17, a18, a19, a20⟩ := h
  unfold Ax25.resetData
  constructor <;> first | assumption | (dsimp only; omega)

theorem handleSabm_safe {c : Chan} (h : Safe c) (hc : c.inChans = true) (hu : Up c) (pf ic e d) :
    ∃ c', handleSabm c pf ic e d = some c' ∧ Safe c' := by
  unfold handleSabm
  rcases hu with hs | hs | hs | hs <;> rw [hs] <;> dsimp only
  · split
    · exact ⟨_, rfl, h.of (by simp)⟩
    · exact ⟨_, rfl, (h.setExtended e d).of (by simp)⟩
  · split
    · refine doErrClose_safe (h.of ?_) ?_
      · exact (core_sendRsp c _ _ : core (sendRsp c (.unn .dm) pf) = _)
      · unfold sendRsp sendCr; split <;> exact hc
    · exact ⟨_, rfl, (h.setExtended e d).of (by simp)⟩
  all_goals
    refine doClose_safe (h.of (core_sendRsp c _ _)) ?_
    unfold sendRsp sendCr; split <;> exact hc

theorem handleDisc_safe {c : Chan} (h : Safe c) (hc : c.inChans = true) (hu : Up c) (pf) :
    ∃ c', handleDisc c pf = some c' ∧ Safe c' := by
  unfold handleDisc
  rcases hu with hs | hs | hs | hs <;> rw [hs] <;> dsimp only
  · exact ⟨_, rfl, h.of (by simp)⟩
  · refine ⟨_, rfl, Safe.of (c := { c with state := .remDisc }) ?_ (by rw [core_sendRsp]; rfl)⟩
    exact h.setState hc (by simp)
  · exact doClose_safe h hc
  · exact doClose_safe h hc

theorem handleDm_safe {c : Chan} (h : Safe c) (hc : c.inChans = true) (hu : Up c) (pf) :
    ∃ c', handleDm c pf = some c' ∧ Safe c' := by
  unfold handleDm
  rcases hu with hs | hs | hs | hs <;> rw [hs] <;> dsimp only
  · split
    · exact ⟨_, rfl, h.fallback⟩
    · split
      · exact doErrClose_safe (h.of (by simp [core, hs])) hc
      · exact ⟨_, rfl, h⟩
  · exact doErrClose_safe (h.of (by simp [core, hs])) hc
  · exact doClose_safe (h.of (by simp [core, hs])) hc
  · split
    · exact doClose_safe (h.of (by simp [core, hs])) hc
    · exact ⟨_, rfl, h⟩

theorem setExtended_inChans (c : Chan) (e d) : (setExtended c e d).inChans = c.inChans := by
  unfold setExtended setExtended.plain
  dsimp only
  repeat' (first | rfl | split)

theorem handleUa_safe {c : Chan} (h : Safe c) (hc : c.inChans = true) (hu : Up c) (pf d) :
    ∃ c', handleUa c pf d = some c' ∧ Safe c' := by
  unfold handleUa
  rcases hu with hs | hs | hs | hs <;> rw [hs] <;> dsimp only
  · split
    · refine ⟨_, rfl, ?_⟩
      split
      · exact (h.setExtended true d).setState ((setExtended_inChans ..).trans hc) (by simp)
      · exact h.setState hc (by simp)
    · exact ⟨_, rfl, h⟩
  · split
    · exact ⟨_, rfl, h⟩
    · exact ⟨_, rfl, h.resetData⟩
  · refine ⟨_, rfl, Safe.setState (h.of (core_sendCmd c _ _)) ?_ (by simp)⟩
    unfold sendCmd sendCr; split <;> exact hc
  · split
    · exact doClose_safe h hc
    · exact ⟨_, rfl, h⟩

theorem handleFrmr_safe {c : Chan} (h : Safe c) (hu : Up c) : ∃ c', handleFrmr c = some c' ∧ Safe c' := by
  unfold handleFrmr
  rcases hu with hs | hs | hs | hs <;> rw [hs] <;> dsimp only
  · exact ⟨_, rfl, h.fallback⟩
  all_goals exact ⟨_, rfl, h⟩

/-- XID changes nothing but `writewindow`, `max_retries` and the queue. -/
theorem xidParm_core (c : Chan) (i v) : ∃ w, core (xidParm c i v) = core { c with writewindow := w } := by
  unfold xidParm
  dsimp only
  repeat' split
  all_goals first | exact ⟨_, rfl⟩ | exact ⟨c.writewindow, rfl⟩

theorem xidLoop_core (c : Chan) (bs glen) (hl : glen ≤ bs.length) :
    ∃ c' b, xidLoop c bs glen = some (c', b) ∧ ∃ w, core c' = core { c with writewindow := w } := by
  fun_induction xidLoop c bs glen with
  | case1 => exact ⟨_, _, rfl, _, rfl⟩
  | case2 => exact ⟨_, _, rfl, _, rfl⟩
  | case3 => exact ⟨_, _, rfl, _, rfl⟩
  | case4 => exact ⟨_, _, rfl, _, rfl⟩
  | case5 c glen _ _ ind len bs' h1 h2 h3 => simp at hl; omega
  | case6 c glen h0 h0' ind len bs' h1 h2 h3 ih =>
    obtain ⟨c', b, e, w, hw⟩ := ih (by simp at hl ⊢; omega)
    refine ⟨c', b, e, w, ?_⟩
    obtain ⟨w', hw'⟩ := xidParm_core c ind.toNat (xidVal (bs'.take len.toNat))
    rw [hw]
    have := congrArg (fun x : Chan => { x with writewindow := w }) hw'
    exact this
  | case7 c bs glen h0 h1 hn =>
    match bs, hn, hl with
    | [], _, hl => simp at hl; omega
    | [_], _, hl => simp at hl; omega
    | a :: b :: r, hn, _ => exact absurd rfl (hn a b r)

theorem handleXid_core (c : Chan) (pf ic b) : ∃ c' w, handleXid c pf ic b = some c' ∧ core c' = core { c with writewindow := w } := by
  unfold handleXid
  split
  · exact ⟨_, c.writewindow, rfl, rfl⟩
  · split
    · rename_i b0 b1 b2 b3 bs
      split
      · exact ⟨_, c.writewindow, rfl, rfl⟩
      · split
        · exact ⟨_, c.writewindow, rfl, rfl⟩
        · dsimp only
          split
          · exact ⟨_, c.writewindow, rfl, rfl⟩
          · rename_i hl
            obtain ⟨c', fl, e, w, hw⟩ := xidLoop_core c bs (b2.toNat * 256 + b3.toNat) (by omega)
            rw [e]
            cases fl
            · exact ⟨_, w, rfl, hw⟩
            · dsimp only
              split
              · exact ⟨_, w, rfl, by rw [core_sendRsp]; exact hw⟩
              · exact ⟨_, w, rfl, hw⟩
    · exact ⟨_, c.writewindow, rfl, rfl⟩

/-- The window after a frame is not above the one the queue was made for.  Only an XID can break this. -/
def WinOk (c : Chan) (f : Frame) : Prop :=
  ∀ pf ic b c', f = .unn .xid pf ic b → handleXid c pf ic b = some c' → c'.writewindow ≤ c.conf.writewindow

theorem handleXid_safe {c : Chan} (h : Safe c) (pf ic b) (hw : WinOk c (.unn .xid pf ic b)) :
    ∃ c', handleXid c pf ic b = some c' ∧ Safe c' := by
  obtain ⟨c', w, e, hc⟩ := handleXid_core c pf ic b
  refine ⟨c', e, ?_⟩
  have hw' := hw pf ic b c' rfl e
  have e1 : c'.writewindow = w := congrArg Chan.writewindow hc
  rw [e1] at hw'
  refine Safe.of (c := { c with writewindow := w }) ?_ hc
  cases h; constructor <;> assumption

theorem handleTest_safe {c : Chan} (h : Safe c) (pf b) : Safe (handleTest c pf b) := by
  unfold handleTest; split
  · exact h
  · exact h.of (by simp)

theorem Safe.updateVa {c : Chan} (h : Safe c) {nr : Nat} (hr : nrInRange c nr = true) (hn : nr < c.modulo) :
    Safe (updateVa c nr) := by
  have hb := (nr_bounds h.vs (by have := h.wlen; have := h.ww1; omega) h.mod hn hr).1
  obtain ⟨a1, a2, a3, a4, a5, a6, a7, a8, a9, a10, a11, a12, a13, a14, a15, a16, a17, a18, a19, a20⟩ := h
  unfold Ax25.updateVa u8
  dsimp only
  generalize subSeq nr (subSeq c.vs c.writeLen c.modulo) c.modulo = diff at hb ⊢
  constructor <;> first | assumption | (dsimp only; omega) | (dsimp only; split <;> omega) | skip

theorem Safe.checkIAcked {c : Chan} (h : Safe c) {nr : Nat} (hr : nrInRange c nr = true) (hn : nr < c.modulo) :
    Safe (checkIAcked c nr) := by
  unfold Ax25.checkIAcked
  repeat' split
  all_goals first | exact h.updateVa hr hn | exact h

theorem checkIAcked_state (c : Chan) (nr) : (checkIAcked c nr).state = c.state := by
  unfold checkIAcked updateVa
  repeat' split
  all_goals rfl

theorem checkIAcked_inChans (c : Chan) (nr) : (checkIAcked c nr).inChans = c.inChans := by
  unfold checkIAcked updateVa
  repeat' split
  all_goals rfl

theorem core_checkRspNeeded (c : Chan) (pf ic) : core (checkRspNeeded c pf ic) = core c := by
  unfold checkRspNeeded
  repeat' split
  all_goals first | simp | rfl

theorem checkDrainDone_safe {c : Chan} (h : Safe c) (hc : c.inChans = true) :
    Safe (checkDrainDone c) ∧ (checkDrainDone c).inChans = true := by
  unfold checkDrainDone
  split
  · have : (sendCmd c (.unn .disc) true).inChans = true := by unfold sendCmd sendCr; split <;> exact hc
    exact ⟨Safe.setState (h.of (core_sendCmd c _ _)) this (by simp), this⟩
  · exact ⟨h, hc⟩

theorem markPresent_ok {ww : Nat} (hww : ww ≤ 127) (sel : Bool) (mw : Nat) :
    ∀ (n pos : Nat) (wr : List WSlot), pos < ww → wr.length = ww → (∀ d ∈ wr, d.data.length = mw) →
      ∃ wr', markPresent ww sel n pos wr = some wr' ∧ wr'.length = ww ∧ ∀ d ∈ wr', d.data.length = mw := by
  intro n
  induction n with
  | zero => intro pos wr _ h1 h2; exact ⟨wr, rfl, h1, h2⟩
  | succ n ih =>
    intro pos wr hp h1 h2
    unfold markPresent
    have hg : wr[pos]? = some (wr[pos]'(by omega)) := List.getElem?_eq_getElem (by omega)
    rw [hg]
    dsimp only
    have hl : (wr.set pos { wr[pos]'(by omega) with present := true }).length = ww := by simpa using h1
    have hd : ∀ d ∈ wr.set pos { wr[pos]'(by omega) with present := true }, d.data.length = mw := by
      intro d hd
      rcases List.mem_or_eq_of_mem_set hd with hd | rfl
      · exact h2 d hd
      · exact h2 (wr[pos]'(by omega)) (List.getElem_mem _)
    split
    · exact ⟨_, rfl, hl, hd⟩
    · apply ih _ _ _ hl hd
      unfold addSeq u8; dsimp only; split <;> omega

theorem rewindSeq_safe' {c : Chan} (h : Safe c) {nr : Nat} (hb : subSeq c.vs nr c.modulo ≤ c.writeLen) (sel) :
    ∃ c', rewindSeq c nr sel = some c' ∧ Safe c' ∧ c'.inChans = c.inChans := by
  unfold rewindSeq
  dsimp only
  generalize subSeq c.vs nr c.modulo = diff at hb ⊢
  rw [if_neg (by omega)]
  have hp : subSeq c.writePos diff c.conf.writewindow < c.conf.writewindow := by
    have := h.wlen; have := h.wpos; have := h.ww1
    unfold subSeq u8; split <;> omega
  obtain ⟨wr', e, h1, h2⟩ := markPresent_ok h.ww1 sel c.conf.maxWrite diff _ c.wr hp h.wrl h.wdat
  rw [e]
  refine ⟨_, rfl, ?_, rfl⟩
  obtain ⟨a1, a2, a3, a4, a5, a6, a7, a8, a9, a10, a11, a12, a13, a14, a15, a16, a17, a18, a19, a20⟩ := h
  constructor <;> first | assumption | (dsimp only; split <;> omega)

theorem rewindSeq_safe {c : Chan} (h : Safe c) {nr : Nat} (hr : nrInRange c nr = true) (hn : nr < c.modulo) (sel) :
    ∃ c', rewindSeq c nr sel = some c' ∧ Safe c' ∧ c'.inChans = c.inChans :=
  rewindSeq_safe' h (nr_bounds h.vs (by have := h.wlen; have := h.ww1; omega) h.mod hn hr).2 sel

end Gensio.Ax25
