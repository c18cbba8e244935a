import Verif.Props.MuxWake

/-!
# Channels of a mux do not disturb each other (C68)
-/

namespace Gensio.Mux

/-- The same channel, except for the lists it may be in. -/
def SameBut (c c' : Chan) : Prop :=
  c' = { c with wrReady := c'.wrReady, inWrlist := c'.inWrlist, inOpenChan := c'.inOpenChan }

theorem SameBut.refl (c : Chan) : SameBut c c := rfl
theorem SameBut.trans {a b c : Chan} (h1 : SameBut a b) (h2 : SameBut b c) : SameBut a c := by
  unfold SameBut at *; rw [h2, h1]

/-- All channels except number `i` stay as they are, up to the lists they may be in. -/
structure Only (i : Nat) (m m' : Mux) : Prop where
  rest : ∀ (j : Nat) (c : Chan), m.chans[j]? = some c → ∃ c', m'.chans[j]? = some c' ∧ (j ≠ i → SameBut c c')

theorem Only.same {i : Nat} {m m' : Mux} (h : m'.chans = m.chans) : Only i m m' :=
  ⟨fun j c hc => ⟨c, by rw [h]; exact hc, fun _ => .refl c⟩⟩

theorem Only.trans {i : Nat} {a b c : Mux} (h1 : Only i a b) (h2 : Only i b c) : Only i a c := by
  constructor
  intro j d hd
  obtain ⟨d1, e1, f1⟩ := h1.rest j d hd
  obtain ⟨d2, e2, f2⟩ := h2.rest j d1 e1
  exact ⟨d2, e2, fun hj => (f1 hj).trans (f2 hj)⟩

theorem Only.set {i : Nat} {m : Mux} (c' : Chan) : Only i m (m.set i c') := by
  constructor
  intro j d hd
  by_cases hj : j = i
  · subst hj
    have : j < m.chans.length := (List.getElem?_eq_some_iff.mp hd).1
    exact ⟨c', by simp [Mux.set, this], fun h => absurd rfl h⟩
  · refine ⟨d, ?_, fun _ => .refl d⟩
    simp only [Mux.set]
    rw [List.getElem?_set_ne (Ne.symm hj)]
    exact hd

/-- One channel changes, and then things that are not about channels. -/
theorem Only.setThen {i : Nat} {m m' : Mux} {c' : Chan} (h : m'.chans = m.chans.set i c') : Only i m m' :=
  (Only.set c').trans (.same h)

theorem Only.flags {i k : Nat} {m m' : Mux} {c c' : Chan} (hc : m.chans[k]? = some c) (hs : SameBut c c')
    (h : m'.chans = m.chans.set k c') : Only i m m' := by
  constructor
  intro j d hd
  rw [h, set_get hc]
  split
  · rename_i hj
    subst hj
    rw [hc] at hd
    rw [← Option.some.inj hd]
    exact ⟨c', rfl, fun _ => hs⟩
  · exact ⟨d, hd, fun _ => .refl d⟩

theorem addWr_only {i k : Nat} {m m' : Mux} (e : m.addWr k = some m') : Only i m m' := by
  rw [Mux.addWr] at e
  split at e
  · cases e
  · rename_i c hc
    split at e
    · rw [← Option.some.inj e]; exact .same rfl
    · split at e
      · cases e
      · rw [← Option.some.inj e]
        exact Only.flags hc (c' := { c with wrReady := true, inWrlist := true }) rfl rfl

theorem nextReq_only {i : Nat} {m m' : Mux} (e : m.nextReq = some m') : Only i m m' := by
  rw [Mux.nextReq] at e
  split at e
  · rename_i k l _
    split at e
    · cases e
    · rename_i c hc
      refine (Only.flags hc (c' := { c with inOpenChan := false }) rfl ?_).trans (addWr_only e)
      rfl
  · split at e
    · rw [← Option.some.inj e]; exact .same rfl
    · cases e

theorem checkRead_only {i : Nat} {m m' : Mux} {ans : List Ans} (e : m.checkRead i ans = some m') : Only i m m' := by
  rw [Mux.checkRead] at e
  split at e
  · cases e
  · split at e
    · cases e
    · rename_i c' _
      split at e
      · exact (Only.set c').trans (addWr_only e)
      · rw [← Option.some.inj e]; exact .set c'

/-- A call of the user for channel `i`. -/
def Op.on (i : Nat) : Op → Bool
  | .write k _ _ _ => k == i
  | .close k => k == i
  | .readEnable k _ => k == i
  | .oob k _ => k == i
  | .deferred k _ => k == i
  | .opn k => k == i
  | _ => false

theorem userOp_only {i : Nat} {m m' : Mux} {op : Op} (ho : op.on i = true) (e : m.step op = some m') : Only i m m' := by
  cases op with
  | alloc _ _ => cases ho
  | writeReady _ => cases ho
  | recv _ _ => cases ho
  | opn k =>
    have hk : k = i := by simpa [Op.on] using ho
    subst hk
    rw [Mux.step, Mux.open] at e
    split at e
    · rw [Mux.openFirst] at e
      split at e
      · cases e
      · simp only at e
        split at e
        · rw [← Option.some.inj e]; exact Only.setThen rfl
        · rw [← Option.some.inj e]; exact Only.setThen rfl
    · rw [Mux.openChan] at e
      split at e
      · cases e
      · split at e
        · rw [← Option.some.inj e]; exact .same rfl
        · simp only at e
          split at e
          · refine Only.trans ?_ (addWr_only e)
            exact Only.setThen rfl
          · rw [← Option.some.inj e]; exact Only.setThen rfl
  | write k sg eom oob =>
    have hk : k = i := by simpa [Op.on] using ho
    subst hk
    rw [Mux.step] at e
    split at e
    · cases e
    · rename_i m2 r hw
      rw [← Option.some.inj e]
      rw [Mux.write] at hw
      have done : ∀ v, some (m, v) = some (m2, r) → Only k m m2 := by
        intro v hv
        rw [← (Prod.mk.inj (Option.some.inj hv)).1]
        exact .same rfl
      split at hw
      · cases hw
      · split at hw
        · exact done _ hw
        · split at hw
          · exact done _ hw
          · split at hw
            · exact done _ hw
            · split at hw
              · exact done _ hw
              · split at hw
                · cases hw
                · rename_i m3 hq
                  rw [← (Prod.mk.inj (Option.some.inj hw)).1]
                  rw [Mux.queue] at hq
                  split at hq
                  · cases hq
                  · split at hq
                    · cases hq
                    · exact (Only.set _).trans (addWr_only hq)
  | close k =>
    have hk : k = i := by simpa [Op.on] using ho
    subst hk
    rw [Mux.step, Mux.close] at e
    split at e
    · cases e
    · split at e
      · rw [← Option.some.inj e]; exact .same rfl
      · split at e
        · rw [← Option.some.inj e]; exact .set _
        · rw [← Option.some.inj e]; exact .set _
        · exact (Only.set _).trans (addWr_only e)
        · rw [← Option.some.inj e]; exact .set _
  | readEnable k en =>
    have hk : k = i := by simpa [Op.on] using ho
    subst hk
    rw [Mux.step, Mux.readEnable] at e
    split at e
    · cases e
    · rw [← Option.some.inj e]; exact .set _
  | oob k en =>
    have hk : k = i := by simpa [Op.on] using ho
    subst hk
    rw [Mux.step, Mux.setOob] at e
    split at e
    · cases e
    · rw [← Option.some.inj e]; exact .set _
  | deferred k ans =>
    have hk : k = i := by simpa [Op.on] using ho
    subst hk
    rw [Mux.step, Mux.deferred] at e
    split at e
    · cases e
    · rename_i m2 h2
      have h3 := checkRead_only h2
      split at e
      · cases e
      · split at e
        · split at e
          · cases e
          · rw [← Option.some.inj e]
            refine h3.trans ?_
            simp only
            split
            · exact Only.setThen rfl
            · exact Only.setThen rfl
        · rw [← Option.some.inj e]; exact h3

theorem onRsp_only {m m' : Mux} (e : m.onRsp = some m') :
    m' = m.proto ∨ ∃ i, m.find (rd16 m.hdr 2) = some i ∧ Only i m m' := by
  rw [Mux.onRsp] at e
  split at e
  · exact Or.inl (Option.some.inj e).symm
  · rename_i i hi
    refine Or.inr ⟨i, hi, ?_⟩
    split at e
    · cases e
    · split at e
      · rw [← Option.some.inj e]; exact .same rfl
      · split at e
        · rw [← Option.some.inj e]; exact .same rfl
        · simp only at e
          split at e
          · rw [← Option.some.inj e]; exact Only.setThen rfl
          · split at e
            · cases e
            · split at e
              · refine Only.trans ?_ (nextReq_only e)
                exact Only.setThen rfl
              · split at e
                · split at e
                  · cases e
                  · rename_i m2 h2
                    refine Only.trans (Only.trans ?_ (addWr_only h2)) (nextReq_only e)
                    exact Only.setThen rfl
                · refine Only.trans ?_ (nextReq_only e)
                  exact Only.setThen rfl

theorem onClose_only {m m' : Mux} (e : m.onClose = some m') :
    m' = m.proto ∨ ∃ i, m.find (rd16 m.hdr 2) = some i ∧ Only i m m' := by
  rw [Mux.onClose] at e
  split at e
  · exact Or.inl (Option.some.inj e).symm
  · rename_i i hi
    refine Or.inr ⟨i, hi, ?_⟩
    split at e
    · cases e
    · split at e
      · rw [← Option.some.inj e]; exact .same rfl
      · simp only at e
        split at e
        · rw [← Option.some.inj e]; exact .set _
        · exact (Only.set _).trans (addWr_only e)

theorem onData_only {m m' : Mux} (e : m.onData = some m') :
    m' = m.proto ∨ ∃ i, m.find (rd16 m.hdr 2) = some i ∧ Only i m m' := by
  rw [Mux.onData] at e
  split at e
  · exact Or.inl (Option.some.inj e).symm
  · rename_i i hi
    refine Or.inr ⟨i, hi, ?_⟩
    split at e
    · cases e
    · split at e
      · rw [← Option.some.inj e]; exact .same rfl
      · simp only at e
        split at e
        · rw [← Option.some.inj e]; exact .same rfl
        · split at e
          · refine Only.trans ?_ (addWr_only e)
            exact Only.setThen rfl
          · rw [← Option.some.inj e]; exact Only.setThen rfl

theorem newDone_only {m m' : Mux} {i : Nat} {c : Chan} {en : Env} (e : m.newDone i c en = some m') : Only i m m' := by
  rw [Mux.newDone] at e
  split at e
  · rw [← Option.some.inj e]; exact Only.setThen rfl
  · split at e
    · rw [← Option.some.inj e]; exact Only.setThen rfl
    · split at e
      · rw [← Option.some.inj e]; exact Only.setThen rfl
      · split at e
        · split at e
          · cases e
          · rename_i m2 h2
            rw [← Option.some.inj e]
            refine Only.trans (Only.trans ?_ (addWr_only h2)) (.same rfl)
            exact Only.setThen rfl
        · rw [← Option.some.inj e]; exact Only.setThen rfl

theorem dataDone_only {m m' : Mux} {i : Nat} {en : Env} (e : m.dataDone i en = some m') : Only i m m' := by
  rw [Mux.dataDone] at e
  split at e
  · cases e
  · rename_i m2 h2
    rw [← Option.some.inj e]
    refine Only.trans (b := m2) ?_ (.same rfl)
    split at h2
    · exact checkRead_only h2
    · rw [← Option.some.inj h2]; exact .same rfl

/-- A byte of the data or of the service string. -/
theorem rxBody_only {m m' : Mux} {b : UInt8} {en : Env} (hh : m.inHdr = false) (e : m.rxByte b en = some m') :
    ∀ i, m.curr = some i → Only i m m' := by
  intro i hi
  rw [Mux.rxByte] at e
  split at e
  · rw [← Option.some.inj e]; exact .same rfl
  · rw [if_neg (by simp [hh])] at e
    split at e
    · rw [← Option.some.inj e]; exact .same rfl
    · split at e
      · rw [Mux.rxLen] at e
        simp only [hi] at e
        split at e
        · cases e
        · split at e
          · split at e
            · refine Only.trans ?_ (newDone_only e)
              exact Only.setThen rfl
            · rw [← Option.some.inj e]; exact Only.setThen rfl
          · split at e
            · split at e
              · refine Only.trans ?_ (dataDone_only e)
                exact .same rfl
              · split at e
                · rw [← Option.some.inj e]; exact .same rfl
                · split at e
                  · cases e
                  · rw [← Option.some.inj e]; exact Only.setThen rfl
            · cases e
      · rw [Mux.rxBody] at e
        simp only [hi] at e
        split at e
        · cases e
        · split at e
          · split at e
            · cases e
            · split at e
              · rw [← Option.some.inj e]; exact Only.setThen rfl
              · exact (Only.set _).trans (newDone_only e)
          · split at e
            · split at e
              · cases e
              · split at e
                · rw [← Option.some.inj e]; exact Only.setThen rfl
                · exact (Only.set _).trans (dataDone_only e)
            · cases e

/-- The last byte of a header about an existing channel. -/
theorem rxHdr_only {m m' : Mux} {b : UInt8} {en : Env} (hh : m.inHdr = true) (hp : m.hdrPos ≠ 0)
    (hs : m.hdrSize ≤ 1 + m.hdrPos) (hm : m.msgid = 3 ∨ m.msgid = 4 ∨ m.msgid = 5) (e : m.rxByte b en = some m') :
    (m'.chans = m.chans ∧ (m'.state = .inClose ∨ m'.state = .closed))
    ∨ ∃ i, m.find (rd16 (m.hdr.set m.hdrPos b) 2) = some i ∧ Only i m m' := by
  rw [Mux.rxByte] at e
  split at e
  · rename_i h
    rw [← Option.some.inj e]; exact Or.inl ⟨rfl, h⟩
  · rw [Mux.rxHdr, if_neg hp, if_neg (by omega), Mux.onHdr] at e
    simp only at e
    rw [if_neg (by omega)] at e
    have key : ∀ {a : Mux}, a.chans = m.chans → a.hdr = m.hdr.set m.hdrPos b →
        (m' = a.proto ∨ ∃ i, a.find (rd16 a.hdr 2) = some i ∧ Only i a m') →
        (m'.chans = m.chans ∧ (m'.state = .inClose ∨ m'.state = .closed))
        ∨ ∃ i, m.find (rd16 (m.hdr.set m.hdrPos b) 2) = some i ∧ Only i m m' := by
      intro a h1 h2 h
      rcases h with h | ⟨i, h3, h4⟩
      · rw [h]; exact Or.inl ⟨h1, Or.inl rfl⟩
      · refine Or.inr ⟨i, ?_, Only.trans (.same h1) h4⟩
        rw [h2] at h3
        rw [← h3, Mux.find, Mux.find, h1]
    split at e
    · rw [← Option.some.inj e]; exact Or.inl ⟨rfl, Or.inl rfl⟩
    · rw [if_neg (by omega)] at e
      split at e
      · exact key (by rfl) (by rfl) (onRsp_only e)
      · split at e
        · exact key (by rfl) (by rfl) (onClose_only e)
        · rw [if_pos (by omega)] at e
          exact key (by rfl) (by rfl) (onData_only e)

theorem nextReq_state {m m' : Mux} (e : m.nextReq = some m') : m'.state = m.state := by
  rw [Mux.nextReq] at e
  split at e
  · split at e
    · cases e
    · exact (addWr_state e).trans rfl
  · split at e
    · rw [← Option.some.inj e]
    · cases e

/-- C68, partly: what happens to one channel leaves the others alone.  A call of the user for channel `i`, a byte of the
data or of the service string for channel `i`, and a response, close or data message for channel `i` change no other
channel, except that one may be added to the list of channels that wait to be sent or be opened.  The mux itself stays open
when the other end closes an open channel and when it refuses a new one.

Missing: the other end refuses a channel that is already being closed (`C68_refused_violated`), and a new channel when
there is no number left (`C68_no_channel_violated`). -/
theorem C68_isolation_partial {m m' : Mux} :
    (∀ i op, op.on i = true → m.step op = some m' → Only i m m')
    ∧ (∀ b en i, m.inHdr = false → m.curr = some i → m.step (.recv b en) = some m' → Only i m m')
    ∧ (∀ b en, m.inHdr = true → m.hdrPos ≠ 0 → m.hdrSize ≤ 1 + m.hdrPos →
        (m.msgid = 3 ∨ m.msgid = 4 ∨ m.msgid = 5) → m.step (.recv b en) = some m' →
        (m'.chans = m.chans ∧ (m'.state = .inClose ∨ m'.state = .closed))
        ∨ ∃ i, m.find (rd16 (m.hdr.set m.hdrPos b) 2) = some i ∧ Only i m m')
    ∧ (∀ b en i c, m.inHdr = true → m.hdrPos ≠ 0 → m.hdrSize ≤ 1 + m.hdrPos → m.state = .opened →
        m.find (rd16 (m.hdr.set m.hdrPos b) 2) = some i → m.chans[i]? = some c → m.step (.recv b en) = some m' →
        (m.msgid = 4 → c.state = .opened → m'.state = .opened)
        ∧ (m.msgid = 3 → c.state = .inOpen → rd32 (m.hdr.set m.hdrPos b) 4 > 128 → m'.state = .opened)) := by
  refine ⟨fun i op => userOp_only, fun b en i h1 h2 e => rxBody_only h1 e i h2, fun b en h1 h2 h3 h4 e =>
    rxHdr_only h1 h2 h3 h4 e, fun b en i c h1 h2 h3 h4 h5 h6 e => ⟨fun h7 h8 => ?_, fun h7 h8 h9 => ?_⟩⟩
  · have e : m.rxByte b en = some m' := e
    rw [Mux.rxByte, if_neg (by rw [h4]; decide), if_pos h1, Mux.rxHdr, if_neg h2, if_neg (by omega), Mux.onHdr] at e
    simp only [h7, h4] at e
    rw [if_neg (by decide), if_neg (by decide), if_neg (by decide), if_neg (by decide), if_pos trivial, Mux.onClose] at e
    rw [Mux.find] at h5
    simp only [Mux.find] at e
    rw [h5] at e
    simp only [h6, h8] at e
    rw [if_neg (by decide), if_neg (by decide)] at e
    exact (addWr_state e).trans rfl
  · have e : m.rxByte b en = some m' := e
    rw [Mux.rxByte, if_neg (by rw [h4]; decide), if_pos h1, Mux.rxHdr, if_neg h2, if_neg (by omega), Mux.onHdr] at e
    simp only [h7, h4] at e
    rw [if_neg (by decide), if_neg (by decide), if_neg (by decide), if_pos trivial, Mux.onRsp] at e
    rw [Mux.find] at h5
    simp only [Mux.find] at e
    rw [h5] at e
    simp only [h6, h8] at e
    rw [if_neg (by decide), if_neg (by decide), if_neg (by omega)] at e
    split at e
    · cases e
    · split at e
      · exact (nextReq_state e).trans rfl
      · rw [if_neg (by decide)] at e
        exact (nextReq_state e).trans rfl

/-- A client opens channel 0 and then asks for channel 1. -/
def twoOps : List Op :=
  [.alloc 0 [], .opn 0, .writeReady [some 99]] ++ ([0x11, 0, 1, 0] : List UInt8).map (fun b => Op.recv b {})
  ++ [.writeReady [some 99]]
  ++ ([0x33, 0, 0, 0, 0, 0, 0, 200, 0, 7, 0, 0] : List UInt8).map (fun b => Op.recv b {})
  ++ [.alloc 1 [], .opn 1, .writeReady [some 99]]

/-- The answer to the request for channel 1: refused with error 5. -/
def refuse : List Op := ([0x33, 0, 0, 1, 0, 0, 0, 200, 0, 0, 0, 5] : List UInt8).map (fun b => Op.recv b {})

/-- Refusing channel 1 closes it and leaves channel 0 and the mux open. -/
example : ((Mux.start true 132 32).run (twoOps ++ refuse)).map (fun m => (m.state, m.chans.map Chan.state))
    = some (.opened, [.opened, .closed]) := by decide +kernel

/-- C68 fails: the user closes channel 1 before the answer comes, and then the other end refuses it.  The mux goes to the
state closed, :2402-2403 and :834-838, although channel 0 is open; everything that arrives later is thrown away. -/
theorem C68_refused_violated : ∃ (ops : List Op) (m : Mux), (Mux.start true 132 32).run ops = some m
    ∧ m.chans.map Chan.state = [.opened, .closed] ∧ m.state = .closed := by
  have h : ((Mux.start true 132 32).run (twoOps ++ [.close 1] ++ refuse)).any (fun m =>
      decide (m.chans.map Chan.state = [.opened, .closed] ∧ m.state = .closed)) = true := by decide +kernel
  rw [Option.any_eq_true] at h
  obtain ⟨m, e, h⟩ := h
  exact ⟨_, m, e, of_decide_eq_true h⟩

/-- C68 fails: the other end asks for a new channel and none can be made.  The request is not answered and its last two
bytes, the length of the service string, are taken for the start of a header, :2341-2347 and :2361; the open channel dies
of a protocol error. -/
theorem C68_no_channel_violated : ∃ (ops : List Op) (m : Mux), (Mux.start true 132 32).run ops = some m
    ∧ (m.chans.map Chan.state).take 1 = [.opened] ∧ m.state = .opened
    ∧ ∃ m', m.run (([0x22, 0, 0, 9, 0, 0, 0, 200, 0, 0] : List UInt8).map (fun b => Op.recv b {})) = some m' ∧ m'.state = .inClose := by
  have h : ((Mux.start true 132 32).run twoOps).any (fun m =>
      decide ((m.chans.map Chan.state).take 1 = [.opened] ∧ m.state = .opened) &&
      (m.run (([0x22, 0, 0, 9, 0, 0, 0, 200, 0, 0] : List UInt8).map (fun b => Op.recv b {}))).any
        (fun m' => decide (m'.state = .inClose))) = true := by decide +kernel
  rw [Option.any_eq_true] at h
  obtain ⟨m, e, h⟩ := h
  rw [Bool.and_eq_true, Option.any_eq_true] at h
  obtain ⟨h1, m', e', h2⟩ := h
  have h1 := of_decide_eq_true h1
  exact ⟨_, m, e, h1.1, h1.2, m', e', of_decide_eq_true h2⟩

end Gensio.Mux
