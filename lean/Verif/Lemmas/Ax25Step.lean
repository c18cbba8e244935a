import Verif.Lemmas.Ax25Safe

namespace Gensio.Ax25

/-- A handler of a frame went well: no assertion failed, the channel is safe, and it is still in its list if there is an error. -/
def Good (o : Option (Chan × Nat)) : Prop := ∃ c' e, o = some (c', e) ∧ Safe c' ∧ (e ≠ 0 → c'.inChans = true)

theorem good_ok {c : Chan} (h : Safe c) : Good (some (c, 0)) := ⟨_, _, rfl, h, by simp⟩

theorem good_err {c : Chan} (h : Safe c) (hc : c.inChans = true) (e) : Good (some (c, e)) := ⟨_, _, rfl, h, fun _ => hc⟩

theorem good_map {o : Option Chan} (h : ∃ c', o = some c' ∧ Safe c') : Good (o.map (·, 0)) := by
  obtain ⟨c', rfl, hs⟩ := h
  exact good_ok hs

theorem inChans_core {c c' : Chan} (e : core c' = core c) : c'.inChans = c.inChans := by
  have := congrArg Chan.inChans e; exact this

theorem modulo_core {c c' : Chan} (e : core c' = core c) : c'.modulo = c.modulo := by
  have := congrArg Chan.modulo e; exact this

theorem state_core {c c' : Chan} (e : core c' = core c) : c'.state = c.state := by
  have := congrArg Chan.state e; exact this

theorem nrInRange_core {c c' : Chan} (e : core c' = core c) (nr) : nrInRange c' nr = nrInRange c nr := by
  unfold nrInRange
  have h1 : c'.vs = c.vs := by have := congrArg Chan.vs e; exact this
  have h2 : c'.writeLen = c.writeLen := by have := congrArg Chan.writeLen e; exact this
  rw [h1, h2, modulo_core e]

theorem handleData_good {c : Chan} (h : Safe c) (hc : c.inChans = true) (ns pf) {body : List UInt8}
    (hb : body.length ≤ c.conf.maxRead + 1) : Good (handleData c ns pf body) := by
  unfold handleData
  dsimp only
  split
  · split
    · exact good_ok (h.of (by simp))
    · exact good_ok h
  · split
    · exact good_err h hc _
    · rename_i pid data
      split
      · split
        · exact good_err h hc _
        · rename_i hl
          have hp : addSeq c.readPos c.readLen c.conf.readwindow < c.conf.readwindow := by
            have := h.rpos; have := h.rw1; unfold addSeq u8; dsimp only; split <;> omega
          rw [if_neg (by simp at hb; have := h.rdl; omega)]
          apply good_ok
          apply Safe.deliverRead
          obtain ⟨a1, a2, a3, a4, a5, a6, a7, a8, a9, a10, a11, a12, a13, a14, a15, a16, a17, a18, a19, a20⟩ := h
          constructor <;> first | assumption | (simpa using a6) | (dsimp only; unfold u8; omega)
      · split
        · split
          · split
            · exact good_ok (h.of (by simp))
            · exact good_ok h
          · refine good_ok (h.of ?_)
            exact (core_sendRsp { c with inRej := true } _ _ : core (sendRsp { c with inRej := true } (.sup .rej) pf) = _)
        · exact good_ok h

theorem conf_core {c c' : Chan} (e : core c' = core c) : c'.conf = c.conf := by
  have := congrArg Chan.conf e; exact this

theorem checkIAcked_conf (c : Chan) (nr) : (checkIAcked c nr).conf = c.conf := by
  unfold checkIAcked updateVa
  repeat' split
  all_goals rfl

theorem handleI_good {c : Chan} (h : Safe c) (hc : c.inChans = true) (hu : Up c) {nr : Nat} (hn : nr < c.modulo) (ns pf ic body) :
    Good (handleI c nr ns pf ic body) := by
  unfold handleI
  dsimp only
  have h' : Safe { c with gotFirst := true } := h.of (by rfl)
  rcases hu with hs | hs | hs | hs <;> simp only [hs]
  · rw [← hs]; exact good_ok h'
  case inr.inr.inr =>
    split
    · rw [← hs]; exact good_ok (h'.of (by simp))
    · rw [← hs]; exact good_ok h'
  all_goals
    split
    · rw [← hs]; exact good_ok h'
    · split
      · rw [← hs]; exact good_err h' hc _
      · split
        · rw [← hs]; exact good_err h' hc _
        · rename_i hb hr
          rw [← hs] at hr ⊢
          have hr' : nrInRange { c with gotFirst := true } nr = true := by simpa using hr
          have h2 := h'.checkIAcked hr' hn
          split
          · exact handleData_good h2 ((checkIAcked_inChans ..).trans hc) _ _ (by rw [checkIAcked_conf]; simpa using hb)
          · exact good_ok (checkDrainDone_safe h2 ((checkIAcked_inChans ..).trans hc)).1

theorem recoveryRsp_good {c : Chan} (h : Safe c) (hc : c.inChans = true) {nr : Nat} (hn : nr < c.modulo) (pf ic) :
    ∃ c' e, recoveryRsp c nr pf ic = some (c', e) ∧ Safe c' ∧ c'.inChans = true := by
  unfold recoveryRsp
  split
  · split
    · exact ⟨_, _, rfl, h, hc⟩
    · rename_i hr
      have hr' : nrInRange c nr = true := by simpa using hr
      have h2 := h.updateVa hr' hn
      dsimp only
      split
      · exact ⟨_, _, rfl, h2.of (by rfl), hc⟩
      · rename_i hne
        obtain ⟨c', e, hs, hi⟩ := rewindSeq_safe' (nr := nr) h2 (by
          have := nr_sum h.vs (by have := h.wlen; have := h.ww1; omega) h.mod hn hr'
          have hwl : c.writeLen ≤ 127 := by have := h.wlen; have := h.ww1; omega
          show subSeq c.vs nr c.modulo ≤ u8 (c.writeLen + 256 - subSeq nr (subSeq c.vs c.writeLen c.modulo) c.modulo)
          unfold u8; omega) false
        rw [e]
        exact ⟨_, _, rfl, hs, hi.trans hc⟩
  · dsimp only
    split
    · split
      · exact ⟨_, _, rfl, h.of (by simp), (inChans_core (core_sendAck ..)).trans hc⟩
      · rename_i hr
        have hr' : nrInRange (sendAck c pf false) nr = true := by simpa using hr
        refine ⟨_, _, rfl, Safe.updateVa (h.of (by simp)) hr' ?_, (inChans_core (core_sendAck c pf false)).trans hc⟩
        rw [modulo_core (core_sendAck ..)]; exact hn
    · split
      · exact ⟨_, _, rfl, h, hc⟩
      · rename_i hr
        exact ⟨_, _, rfl, h.updateVa (by simpa using hr) hn, hc⟩

theorem handleRrRnr_good {c : Chan} (h : Safe c) (hc : c.inChans = true) {nr : Nat} (hn : nr < c.modulo) (pf ic) :
    Good (handleRrRnr c nr pf ic) := by
  unfold handleRrRnr
  have key : ∃ c' e, (if c.pollPending then recoveryRsp c nr pf ic
      else
        let c := checkRspNeeded c pf ic
        if nrInRange c nr = false then some (c, geProtoerr) else some (checkIAcked c nr, 0)) = some (c', e) ∧ Safe c' ∧
      c'.inChans = true := by
    split
    · exact recoveryRsp_good h hc hn pf ic
    · have e := core_checkRspNeeded c pf ic
      dsimp only
      split
      · exact ⟨_, _, rfl, h.of e, (inChans_core e).trans hc⟩
      · rename_i hr
        refine ⟨_, _, rfl, (h.of e).checkIAcked (by simpa using hr) (by rw [modulo_core e]; exact hn), ?_⟩
        rw [checkIAcked_inChans]; exact (inChans_core e).trans hc
  obtain ⟨c', e, he, hs, hi⟩ := key
  dsimp only at he ⊢
  rw [he]
  dsimp only
  split
  · exact good_err hs hi _
  · split
    · exact good_ok (checkDrainDone_safe hs hi).1
    · exact good_ok hs

theorem dm_good {c : Chan} (h : Safe c) (pf : Bool) : Good (some (if pf then sendRsp c (.unn .dm) pf else c, 0)) := by
  split
  · exact good_ok (h.of (by simp))
  · exact good_ok h

theorem handleRr_good {c : Chan} (h : Safe c) (hc : c.inChans = true) (hu : Up c) {nr : Nat} (hn : nr < c.modulo) (pf ic) :
    Good (handleRr c nr pf ic) := by
  unfold handleRr
  split
  · exact good_ok h
  · exact good_ok h
  · exact good_ok h
  · exact dm_good h pf
  · exact handleRrRnr_good (h.of (c' := { c with peerBsy := false }) (by rfl)) hc hn pf ic
  · exact handleRrRnr_good (h.of (c' := { c with peerBsy := false }) (by rfl)) hc hn pf ic
  · rcases hu with hs | hs | hs | hs <;> simp_all

theorem handleRnr_good {c : Chan} (h : Safe c) (hc : c.inChans = true) (hu : Up c) {nr : Nat} (hn : nr < c.modulo) (pf ic) :
    Good (handleRnr c nr pf ic) := by
  unfold handleRnr
  split
  · exact good_ok h
  · exact good_ok h
  · exact good_ok h
  · exact dm_good h pf
  · exact handleRrRnr_good (h.of (c' := { c with peerBsy := true }) (by rfl)) hc hn pf ic
  · exact handleRrRnr_good (h.of (c' := { c with peerBsy := true }) (by rfl)) hc hn pf ic
  · rcases hu with hs | hs | hs | hs <;> simp_all

theorem rewind_good {c : Chan} (h : Safe c) {nr : Nat} (hr : nrInRange c nr = true) (hn : nr < c.modulo) (sel) :
    Good ((rewindSeq c nr sel).map (·, 0)) := by
  obtain ⟨c', e, hs, _⟩ := rewindSeq_safe h hr hn sel
  exact good_map ⟨c', e, hs⟩

theorem rejBody_good {c : Chan} (h : Safe c) (hc : c.inChans = true) {nr : Nat} (hn : nr < c.modulo) (pf ic : Bool) (sel : Bool) :
    Good (let c := checkRspNeeded c pf ic
          if nrInRange c nr = false then some (c, geProtoerr) else (rewindSeq c nr sel).map (·, 0)) := by
  have e := core_checkRspNeeded c pf ic
  dsimp only
  split
  · exact good_err (h.of e) ((inChans_core e).trans hc) _
  · rename_i hr
    exact rewind_good (h.of e) (by simpa using hr) (by rw [modulo_core e]; exact hn) sel

theorem handleRej_good {c : Chan} (h : Safe c) (hc : c.inChans = true) (hu : Up c) {nr : Nat} (hn : nr < c.modulo) (pf ic) :
    Good (handleRej c nr pf ic) := by
  have key : Good (if c.pollPending then
      let c := if ic = true ∧ pf = true then sendAck c pf false else c
      if nrInRange c nr = false then some (c, geProtoerr)
      else
        let c := { c with va := nr }
        if c.va = c.vs then some (c, 0) else (rewindSeq c nr false).map (·, 0)
    else
      let c := checkRspNeeded c pf ic
      if nrInRange c nr = false then some (c, geProtoerr) else (rewindSeq c nr false).map (·, 0)) := by
    split
    · have e : core (if ic = true ∧ pf = true then sendAck c pf false else c) = core c := by split <;> simp
      dsimp only
      generalize (if ic = true ∧ pf = true then sendAck c pf false else c) = c1 at e ⊢
      have h1 := h.of e
      split
      · exact good_err h1 ((inChans_core e).trans hc) _
      · rename_i hr
        have h2 : Safe { c1 with va := nr } := h1.of (by rfl)
        split
        · exact good_ok h2
        · exact rewind_good h2 (Eq.trans (show nrInRange { c1 with va := nr } nr = nrInRange c1 nr from rfl) (by simpa using hr)) (by rw [← modulo_core e] at hn; exact hn) _
    · exact rejBody_good h hc hn pf ic false
  unfold handleRej
  split
  · exact good_ok h
  · exact good_ok h
  · exact good_ok h
  · exact dm_good h pf
  · exact key
  · exact key
  · rcases hu with hs | hs | hs | hs <;> simp_all

theorem handleSrej_good {c : Chan} (h : Safe c) (hc : c.inChans = true) (hu : Up c) {nr : Nat} (hn : nr < c.modulo) (pf ic) :
    Good (handleSrej c nr pf ic) := by
  have key : Good (if c.pollPending then
      if nrInRange c nr = false then some (c, geProtoerr)
      else
        let c := if pf then { c with va := nr } else c
        if c.va = c.vs then some (c, 0) else (rewindSeq c nr true).map (·, 0)
    else
      let c := checkRspNeeded c pf ic
      if nrInRange c nr = false then some (c, geProtoerr) else (rewindSeq c nr true).map (·, 0)) := by
    split
    · split
      · exact good_err h hc _
      · rename_i hr
        have e : core (if pf then { c with va := nr } else c) = core c := by split <;> rfl
        dsimp only
        generalize (if pf then { c with va := nr } else c) = c1 at e ⊢
        have h1 := h.of e
        split
        · exact good_ok h1
        · exact rewind_good h1 (by rw [nrInRange_core e]; simpa using hr) (by rw [modulo_core e]; exact hn) _
    · exact rejBody_good h hc hn pf ic true
  unfold handleSrej
  split
  · exact good_ok h
  · exact good_ok h
  · exact good_ok h
  · exact dm_good h pf
  · exact key
  · exact key
  · rcases hu with hs | hs | hs | hs <;> simp_all

theorem dispatch_good {c : Chan} (h : Safe c) (hc : c.inChans = true) (hu : Up c) {f : Frame} (hf : frameIn c.modulo f = true)
    (hw : WinOk c f) : Good (dispatch c f) := by
  unfold dispatch
  split
  · simp [frameIn] at hf; exact handleI_good h hc hu hf.1 ..
  · simp [frameIn] at hf; exact handleRr_good h hc hu hf ..
  · simp [frameIn] at hf; exact handleRnr_good h hc hu hf ..
  · simp [frameIn] at hf; exact handleRej_good h hc hu hf ..
  · simp [frameIn] at hf; exact handleSrej_good h hc hu hf ..
  · exact good_map (handleSabm_safe h hc hu ..)
  · exact good_map (handleSabm_safe h hc hu ..)
  · exact good_map (handleDisc_safe h hc hu ..)
  · exact good_map (handleDm_safe h hc hu ..)
  · exact good_map (handleUa_safe h hc hu ..)
  · exact good_map (handleFrmr_safe h hu)
  · exact good_map (handleXid_safe h _ _ _ hw)
  · exact good_ok (handleTest_safe h ..)

theorem up_of {c : Chan} (h : Safe c) (hc : c.inChans = true) (h1 : c.state ≠ .remDisc) (h2 : c.state ≠ .remClose) : Up c := by
  have := h.live.1 hc
  unfold Up
  cases hs : c.state <;> simp_all

theorem rx_safe {c : Chan} (h : Safe c) {f : Frame} (hf : frameIn c.modulo f = true) (hw : WinOk c f) :
    ∃ c', rx c f = some c' ∧ Safe c' := by
  unfold rx
  split
  · exact ⟨_, rfl, h⟩
  · rename_i hn
    have hc : c.inChans = true := by simp at hn; exact hn.1
    obtain ⟨c', e, he, hs, hi⟩ := dispatch_good h hc (up_of h hc (by simp at hn; exact hn.2.1) (by simp at hn; exact hn.2.2)) hf hw
    rw [he]
    dsimp only
    split
    · rename_i hne
      exact doErrClose_safe (hs.of (by rfl)) (hi hne)
    · exact ⟨_, rfl, hs⟩

theorem t1_safe {c : Chan} (h : Safe c) : ∃ c', t1 c = some c' ∧ Safe c' := by
  unfold t1
  split
  · rename_i hs
    have hc : c.inChans = true := h.live.2 (by simp [hs])
    split
    · exact ⟨_, moveToClosed_some hc, Safe.moved (c := { c with err := geTimedout }) (h.of (by rfl)) (by simp)⟩
    · exact ⟨_, rfl, h.of (by rw [core_sendSabm]; rfl)⟩
  · rename_i hs
    have hc : c.inChans = true := h.live.2 (by simp [hs])
    split
    · split
      · refine doErrClose_safe (h.of ?_) ?_
        · exact (core_sendRsp c (.unn .dm) true : core (sendRsp c (.unn .dm) true) = _)
        · exact (inChans_core (core_sendRsp c (.unn .dm) true)).trans hc
      · exact ⟨_, rfl, h.of (by rw [core_sendAck]; rfl)⟩
    · exact ⟨_, rfl, h.of (by rw [core_sendAck]; rfl)⟩
  · rename_i hs
    have hc : c.inChans = true := h.live.2 (by simp [hs])
    split
    · split
      · refine doErrClose_safe (h.of ?_) ?_
        · exact (core_sendRsp c (.unn .dm) true : core (sendRsp c (.unn .dm) true) = _)
        · exact (inChans_core (core_sendRsp c (.unn .dm) true)).trans hc
      · exact ⟨_, rfl, h.of (by rw [core_sendAck]; rfl)⟩
    · exact ⟨_, rfl, h.of (by rw [core_sendAck]; rfl)⟩
  · rename_i hs
    have hc : c.inChans = true := h.live.2 (by simp [hs])
    split
    · exact doClose_safe (h.of (by rfl)) hc
    · exact ⟨_, rfl, h.of (by rw [core_sendCmd]; rfl)⟩
  · exact ⟨_, rfl, h⟩

theorem t2_safe {c : Chan} (h : Safe c) : Safe (t2 c) := by
  refine h.of ?_
  unfold t2; repeat' split
  all_goals simp

theorem t3_safe {c : Chan} (h : Safe c) : Safe (t3 c) := by
  refine h.of ?_
  unfold t3; repeat' split
  · rw [core_sendAck]; rfl
  · rfl

theorem childErr_safe {c : Chan} (h : Safe c) (e) : ∃ c', childErr c e = some c' ∧ Safe c' := by
  unfold childErr
  split
  · exact doErrClose_safe (h.of (by rfl)) (by assumption)
  · exact ⟨_, rfl, h⟩

theorem skipCmdrsp_safe {c : Chan} (h : Safe c) (hc : c.inChans = true) : ∃ c', skipCmdrsp c = some c' ∧ Safe c' := by
  have h' : Safe { c with cmdrsp := c.cmdrsp.tail } := h.of (by rfl)
  unfold skipCmdrsp
  dsimp only
  split
  · exact doErrClose_safe h' hc
  · exact doClose_safe h' hc
  · exact ⟨_, rfl, h'⟩

theorem some_map {α β : Type} {o : Option α} {P : α → Prop} {b : β} (h : ∃ a, o = some a ∧ P a) :
    ∃ a b', o.map (·, b) = some (a, b') ∧ P a := by
  obtain ⟨a, rfl, hp⟩ := h
  exact ⟨a, b, rfl, hp⟩

theorem Safe.setSlot {c : Chan} (h : Safe c) (pos : Nat) {d : WSlot} (hd : d.data.length = c.conf.maxWrite) :
    Safe { c with wr := c.wr.set pos d } := by
  obtain ⟨a1, a2, a3, a4, a5, a6, a7, a8, a9, a10, a11, a12, a13, a14, a15, a16, a17, a18, a19, a20⟩ := h
  constructor <;> first | assumption | (simpa using a5) | skip
  intro x hx
  rcases List.mem_or_eq_of_mem_set hx with hx | rfl
  · exact a7 x hx
  · exact hd

theorem Safe.lessSend {c : Chan} (h : Safe c) : Safe { c with sendLen := c.sendLen - 1 } := by
  obtain ⟨a1, a2, a3, a4, a5, a6, a7, a8, a9, a10, a11, a12, a13, a14, a15, a16, a17, a18, a19, a20⟩ := h
  constructor <;> first | assumption | (dsimp only; omega)

theorem tx_safe {c : Chan} (h : Safe c) (r : LlRes) : ∃ c' o, tx c r = some (c', o) ∧ Safe c' := by
  unfold tx
  split
  · exact ⟨_, _, rfl, h⟩
  · rename_i hc
    have hc : c.inChans = true := by simpa using hc
    split
    · split
      · exact some_map (skipCmdrsp_safe h hc)
      · split
        · exact some_map (skipCmdrsp_safe h hc)
        · exact ⟨_, _, rfl, h⟩
        · exact some_map (childErr_safe h _)
        · exact some_map (childErr_safe h _)
    · split
      · dsimp only
        have hp : subSeq c.writePos c.sendLen c.conf.writewindow < c.conf.writewindow := by
          have := h.wlen; have := h.slen; have := h.wpos; have := h.ww1
          unfold subSeq u8; split <;> omega
        split
        · rename_i hn
          rw [List.getElem?_eq_none_iff] at hn
          have := h.wrl; omega
        · rename_i d hd
          have hdl : d.data.length = c.conf.maxWrite := h.wdat d (List.mem_of_getElem? hd)
          split
          · exact ⟨_, _, rfl, h.lessSend⟩
          · generalize (c.dataPSent || decide (subSeq c.vs c.va c.modulo ≥ c.writewindow)) = dp
            have h1 : Safe { c with dataPSent := dp, ackPending := 0 } := h.of (by rfl)
            split
            · exact some_map (childErr_safe h1 _)
            · exact ⟨_, _, rfl, h1⟩
            · exact some_map (childErr_safe (h1.setSlot (subSeq c.writePos c.sendLen c.conf.writewindow) (d := { d with present := false }) hdl) _)
            · have h2 := (h1.setSlot (subSeq c.writePos c.sendLen c.conf.writewindow) (d := { d with present := false }) hdl).lessSend
              split
              · exact ⟨_, _, rfl, h2.of (by rw [core_sendAck]; rfl)⟩
              · exact ⟨_, _, rfl, h2⟩
      · exact ⟨_, _, rfl, h⟩

theorem copyAt_length {buf : List UInt8} {pos : Nat} {src b : List UInt8} (h : copyAt buf pos src = some b) : b.length = buf.length := by
  unfold copyAt at h
  split at h
  · cases h; rfl
  · split at h
    · cases h; simp; omega
    · cases h

theorem copySg_length {sg : List (List UInt8)} : ∀ {buf : List UInt8} {left pos : Nat} {b : List UInt8},
    copySg buf left pos sg = some b → b.length = buf.length := by
  induction sg with
  | nil => intro buf left pos b h; simp [copySg] at h; subst h; rfl
  | cons s sg ih =>
    intro buf left pos b h
    unfold copySg at h
    split at h
    · cases h
    · rename_i b' hb'
      rw [ih h, copyAt_length hb']

/-- The data given to a write fits: the copy of it does not leave the buffer. -/
def FitsIn (size limit : Nat) (sg : List (List UInt8)) : Prop :=
  ∀ buf : List UInt8, buf.length = size → ∃ b, copySg buf (if sg.flatten.length > limit then limit else sg.flatten.length) 0 sg = some b

theorem write_safe {c : Chan} (h : Safe c) (sg : List (List UInt8)) (pid : UInt8) (hf : FitsIn c.conf.maxWrite c.maxWrite sg) :
    ∃ c' r, write c sg pid = some (c', r) ∧ Safe c' := by
  unfold write
  dsimp only
  split
  · exact ⟨_, _, rfl, h⟩
  · split
    · exact ⟨_, _, rfl, h⟩
    · split
      · rename_i hn
        rw [List.getElem?_eq_none_iff] at hn
        have := h.wrl; have := h.wpos; omega
      · rename_i hw _ d hd
        have hdl : d.data.length = c.conf.maxWrite := h.wdat d (List.mem_of_getElem? hd)
        obtain ⟨b, hb⟩ := hf d.data hdl
        rw [hb]
        dsimp only
        have h1 := h.wlen; have h2 := h.slen; have h3 := h.wwin; have h4 := h.ww1; have h5 := h.wpos
        have hbl := (copySg_length hb).trans hdl
        rw [if_neg (by unfold u8; omega)]
        refine ⟨_, _, rfl, ?_⟩
        have hs := h.setSlot c.writePos
          (d := ⟨b, if sg.flatten.length > c.maxWrite then c.maxWrite else sg.flatten.length, c.vs, pid, true⟩) hbl
        obtain ⟨a1, a2, a3, a4, a5, a6, a7, a8, a9, a10, a11, a12, a13, a14, a15, a16, a17, a18, a19, a20⟩ := hs
        have hm : addSeq c.vs 1 c.modulo < 256 := by
          unfold addSeq u8; dsimp only; split <;> omega
        have hp : addSeq c.writePos 1 c.conf.writewindow < c.conf.writewindow := by
          unfold addSeq u8; dsimp only; split <;> omega
        constructor <;> first | assumption | (dsimp only; unfold u8; omega)

theorem close_safe {c : Chan} (h : Safe c) : ∃ c' e, close c = some (c', e) ∧ Safe c' := by
  unfold close
  split
  · exact ⟨_, _, rfl, h⟩
  · exact ⟨_, _, rfl, h⟩
  · exact ⟨_, _, rfl, h⟩
  · exact ⟨_, _, rfl, h⟩
  · exact ⟨_, _, rfl, h⟩
  · rename_i hs
    exact ⟨_, _, rfl, h.setState (h.live.2 (by simp [hs])) (by simp)⟩
  · rename_i hs
    refine ⟨_, _, rfl, ?_⟩
    have hc : c.inChans = false := by
      cases hx : c.inChans with
      | false => rfl
      | true => have := h.live.1 hx; simp [hs] at this
    cases h; constructor <;> first | assumption | simp [hc]
  · rename_i hs
    have hc : c.inChans = true := h.live.2 (by simp [hs])
    refine some_map ⟨_, moveToClosed_some ?_, ?_⟩
    · exact (inChans_core (core_sendCmd _ _ _)).trans hc
    · refine Safe.moved (c := sendCmd { c with retryCount := 0, err := geLocalclosed } (.unn .dm) true) (h.of ?_) (by simp)
      rw [core_sendCmd]; rfl
  · rename_i hs
    have hc : c.inChans = true := h.live.2 (by simp [hs])
    split
    · refine ⟨_, _, rfl, Safe.setState (h.of ?_) ((inChans_core (core_sendAck _ _ _)).trans hc) (by simp)⟩
      rw [core_sendAck]; rfl
    · dsimp only
      refine ⟨_, _, rfl, Safe.setState (h.of ?_) ?_ (by simp)⟩
      · rw [core_sendCmd]; split
        · rw [core_sendAck]; rfl
        · rfl
      · refine (inChans_core (core_sendCmd _ _ _)).trans ?_
        split
        · exact (inChans_core (core_sendAck _ _ _)).trans hc
        · exact hc

theorem fin_safe {c : Chan} (h : Safe c) : Safe (fin c) := by
  unfold fin
  split
  · rename_i hs
    apply Safe.resetData
    have hc : c.inChans = false := by
      cases hx : c.inChans with
      | false => rfl
      | true => have := h.live.1 hx; simp [hs.1] at this
    cases h; constructor <;> first | assumption | simp [hc]
  · exact h

theorem Safe.setRd {c : Chan} (h : Safe c) (i d) : Safe { c with rd := c.rd.set i d } := by
  obtain ⟨a1, a2, a3, a4, a5, a6, a7, a8, a9, a10, a11, a12, a13, a14, a15, a16, a17, a18, a19, a20⟩ := h
  constructor <;> first | assumption | (simpa using a6)

theorem readRet_safe {c : Chan} (h : Safe c) {r : Except Nat Nat} (hp : possible c (.readRet r) = true)
    (hb : ∀ e, r = .error e → c.inChans = true ∨ c.err ≠ 0) :
    ∃ c' o, readRet c r = some (c', o) ∧ Safe c' := by
  unfold readRet
  split
  · rename_i hn
    cases r <;> simp [possible, hn] at hp
  · rename_i ir hir
    split
    · split
      · rename_i e he
        have hc : c.inChans = true := (hb e rfl).resolve_right (by simpa using he)
        obtain ⟨c', e', hs⟩ := doErrClose_safe (c := { c with err := e }) (h.of (by rfl)) hc
        rw [e']
        exact ⟨_, _, rfl, hs.readExit⟩
      · exact ⟨_, _, rfl, h.readExit⟩
    · split
      · rename_i hn
        rw [List.getElem?_eq_none_iff] at hn
        have := h.rdl; have := h.ird ir hir; omega
      · split
        · exact ⟨_, _, rfl, (h.setRd _ _).readLoop⟩
        · refine ⟨_, _, rfl, Safe.readLoop ?_⟩
          have h5 := h.rpos
          have h6 := h.rw1
          have hp : addSeq c.readPos 1 c.conf.readwindow < c.conf.readwindow := by
            unfold addSeq u8; dsimp only; split <;> omega
          obtain ⟨a1, a2, a3, a4, a5, a6, a7, a8, a9, a10, a11, a12, a13, a14, a15, a16, a17, a18, a19, a20⟩ := h
          constructor <;> first | assumption | (dsimp only; unfold u8; omega)

theorem copySg_ok {sg : List (List UInt8)} : ∀ {buf : List UInt8} {L pos : Nat}, L ≤ buf.length → L < 18446744073709551616 →
    pos ≤ L → pos + sg.dropLast.flatten.length ≤ L →
    ∃ b, copySg buf (L - pos) pos sg = some b ∧ b.take L = (buf.take pos ++ sg.flatten.take (L - pos) ++ buf.drop (pos + sg.flatten.length)).take L := by
  induction sg with
  | nil => intro buf L pos h1 h2 h3 h4; exact ⟨buf, rfl, by simp⟩
  | cons s sg ih =>
    intro buf L pos h1 h2 h3 h4
    unfold copySg
    have hsrc : (if s.length > L - pos then s.take (L - pos) else s) = s.take (L - pos) := by
      split
      · rfl
      · rw [List.take_of_length_le (by omega)]
    rw [hsrc]
    have hc : copyAt buf pos (s.take (L - pos)) =
        some (buf.take pos ++ s.take (L - pos) ++ buf.drop (pos + (s.take (L - pos)).length)) := by
      unfold copyAt
      split
      · rename_i h0
        have : s.take (L - pos) = [] := List.length_eq_zero_iff.1 h0
        rw [this]; simp
      · rw [if_pos (by rw [List.length_take]; omega)]
    rw [hc]
    dsimp only
    cases sg with
    | nil =>
      refine ⟨_, rfl, ?_⟩
      simp only [List.flatten_cons, List.flatten_nil, List.append_nil, List.length_take]
      by_cases hl : s.length ≤ L - pos
      · rw [Nat.min_eq_right hl]
      · rw [Nat.min_eq_left (by omega)]
        have hlen : (buf.take pos ++ s.take (L - pos)).length = L := by simp; omega
        rw [List.take_left' hlen, List.take_left' hlen]
    | cons s' sg =>
      simp only [List.dropLast_cons_cons, List.flatten_cons, List.length_append] at h4
      have hle : s.length ≤ L - pos := by omega
      rw [List.take_of_length_le hle]
      have e : (L - pos + 18446744073709551616 - s.length) % 18446744073709551616 = L - (pos + s.length) := by omega
      rw [e]
      have hbl : (buf.take pos ++ s ++ buf.drop (pos + s.length)).length = buf.length := by simp; omega
      obtain ⟨b, hb, hb2⟩ := ih (buf := buf.take pos ++ s ++ buf.drop (pos + s.length)) (L := L) (pos := pos + s.length)
        (by omega) h2 (by omega) (by omega)
      refine ⟨b, hb, hb2.trans ?_⟩
      have t1 : (buf.take pos ++ s ++ buf.drop (pos + s.length)).take (pos + s.length) = buf.take pos ++ s :=
        List.take_left' (by simp; omega)
      have t2 : (buf.take pos ++ s ++ buf.drop (pos + s.length)).drop (pos + s.length + (s' :: sg).flatten.length) =
          buf.drop (pos + (s ++ (s' :: sg).flatten).length) := by
        rw [← List.drop_drop, List.drop_left' (by simp; omega), List.drop_drop, List.length_append, Nat.add_assoc]
      have t3 : (s ++ (s' :: sg).flatten).take (L - pos) = s ++ (s' :: sg).flatten.take (L - (pos + s.length)) := by
        rw [List.take_append, List.take_of_length_le hle, show L - pos - s.length = L - (pos + s.length) by omega]
      rw [t1, t2, show (s :: s' :: sg).flatten = s ++ (s' :: sg).flatten from rfl, t3]
      simp only [List.append_assoc]

theorem fits {size limit : Nat} {sg : List (List UInt8)} (h1 : limit ≤ size) (h2 : limit < 18446744073709551616)
    (h3 : sg.dropLast.flatten.length ≤ limit) : FitsIn size limit sg := by
  intro buf hb
  have hd : sg.dropLast.flatten.length ≤ sg.flatten.length := by
    rcases List.eq_nil_or_concat sg with rfl | ⟨l, x, rfl⟩
    · simp
    · simp
  obtain ⟨b, e, _⟩ := copySg_ok (sg := sg) (buf := buf)
    (L := if sg.flatten.length > limit then limit else sg.flatten.length) (pos := 0)
    (by split <;> omega) (by split <;> omega) (by omega) (by split <;> omega)
  exact ⟨b, by simpa using e⟩

theorem write_exact {c : Chan} (h : Safe c) (hs : c.state = .opn) (hw : c.writeLen < c.writewindow) {sg : List (List UInt8)}
    (hf : sg.dropLast.flatten.length ≤ c.maxWrite) (pid : UInt8) :
    ∃ b, b.take (min sg.flatten.length c.maxWrite) = sg.flatten.take (min sg.flatten.length c.maxWrite) ∧
      write c sg pid = some ({ c with wr := c.wr.set c.writePos ⟨b, min sg.flatten.length c.maxWrite, c.vs, pid, true⟩, vs := addSeq c.vs 1 c.modulo, writePos := addSeq c.writePos 1 c.conf.writewindow, writeLen := c.writeLen + 1, sendLen := c.sendLen + 1 },
        0, min sg.flatten.length c.maxWrite) := by
  have h1 := h.wlen; have h2 := h.slen; have h3 := h.wwin; have h4 := h.ww1; have h5 := h.wpos; have h6 := h.wrl
  have hlt : c.writePos < c.wr.length := by omega
  have hdl : c.wr[c.writePos].data.length = c.conf.maxWrite := h.wdat _ (List.getElem_mem hlt)
  have hd : sg.dropLast.flatten.length ≤ sg.flatten.length := by
    rcases List.eq_nil_or_concat sg with rfl | ⟨l, x, rfl⟩
    · simp
    · simp
  have hmw := h.mw; have hm := h.mwb
  obtain ⟨b, hb, hb2⟩ := copySg_ok (sg := sg) (buf := c.wr[c.writePos].data)
    (L := if sg.flatten.length > c.maxWrite then c.maxWrite else sg.flatten.length) (pos := 0)
    (by split <;> omega) (by split <;> omega) (by omega) (by split <;> omega)
  rw [Nat.sub_zero] at hb hb2
  have hn : (if sg.flatten.length > c.maxWrite then c.maxWrite else sg.flatten.length) = min sg.flatten.length c.maxWrite := by
    split <;> omega
  refine ⟨b, ?_, ?_⟩
  · rw [hn] at hb2
    rw [hb2]
    simp only [List.take_zero, List.nil_append]
    rw [List.take_append, List.take_take, Nat.min_self, List.length_take]
    simp
  · unfold write
    dsimp only
    rw [if_neg (by simp [hs]), if_neg (by omega), List.getElem?_eq_getElem hlt]
    dsimp only
    rw [hb]
    dsimp only
    have e1 : u8 (c.writeLen + 1) = c.writeLen + 1 := by unfold u8; omega
    have e2 : u8 (c.sendLen + 1) = c.sendLen + 1 := by unfold u8; omega
    rw [if_neg (by unfold u8; omega), hn, e1, e2]

/-- The event is none of those that can break a channel: an XID that moves the write window past the size of the queue, a write whose
data passes the packet size before its last piece, and a read callback failing on a channel that was closed without an error. -/
def Benign (c : Chan) : Ev → Prop
  | .rx f => WinOk c f
  | .write sg _ => sg.dropLast.flatten.length ≤ c.maxWrite
  | .readRet (.error _) => c.inChans = true ∨ c.err ≠ 0
  | _ => True

theorem step_safe {c : Chan} (h : Safe c) {ev : Ev} (hp : possible c ev = true) (hb : Benign c ev) :
    ∃ c', step c ev = some c' ∧ Safe c' := by
  have drop2 : ∀ {α : Type} {o : Option (Chan × α)}, (∃ c' r, o = some (c', r) ∧ Safe c') → ∃ c', o.map (·.1) = some c' ∧ Safe c' := by
    rintro α o ⟨c', r, rfl, hs⟩; exact ⟨c', rfl, hs⟩
  cases ev with
  | write sg pid => exact drop2 (write_safe h sg pid (fits h.mw (by have := h.mw; have := h.mwb; omega) hb))
  | tx r => exact drop2 (tx_safe h r)
  | rx f => simp [possible] at hp; exact rx_safe h hp.1 hb
  | readEn b => exact ⟨_, rfl, h.of (by rfl)⟩
  | deferred => exact ⟨_, rfl, h.deliverRead _⟩
  | readRet r =>
    refine drop2 (readRet_safe h hp ?_)
    rintro e rfl; exact hb
  | t1 => exact t1_safe h
  | t2 => exact ⟨_, rfl, t2_safe h⟩
  | t3 => exact ⟨_, rfl, t3_safe h⟩
  | close => exact drop2 (close_safe h)
  | fin => exact ⟨_, rfl, fin_safe h⟩
  | childErr e => exact childErr_safe h e

end Gensio.Ax25
