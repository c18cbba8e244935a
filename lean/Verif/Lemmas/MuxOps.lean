import Verif.Lemmas.MuxFlush

/-!
# All operations keep the sending side of a mux in order
-/

namespace Gensio.Mux

/-! ## Delivering data -/

/-- Delivering data changes only these parts of a channel. -/
def RdOnly (c c' : Chan) : Prop :=
  c' = { c with rd := c'.rd, readEnabled := c'.readEnabled, recvUnacked := c'.recvUnacked, calls := c'.calls }

theorem RdOnly.refl (c : Chan) : RdOnly c c := rfl

theorem RdOnly.trans {a b c : Chan} (h1 : RdOnly a b) (h2 : RdOnly b c) : RdOnly a c := by
  unfold RdOnly at *; rw [h2, h1]

theorem callback_rd (c : Chan) (pos n : Nat) (oob eom : Bool) (a : Ans) : RdOnly c (c.callback pos n oob eom a).1 := rfl

theorem afterRead_rd (c : Chan) (f : UInt8) (len olen : Nat) : RdOnly c (c.afterRead f len olen) := by
  rw [Chan.afterRead]; split <;> rfl

theorem deliver2_rd (c : Chan) (f : UInt8) (oob : Bool) (pos len olen : Nat) (a : Ans) :
    RdOnly c (c.deliver2 f oob pos len olen a) :=
  (callback_rd c pos len oob (eomFlag f) a).trans (afterRead_rd _ _ _ _)

theorem deliver_rd (c : Chan) (len : Nat) (ans : List Ans) : RdOnly c (c.deliver len ans).1 := by
  rw [Chan.deliver]
  simp only
  split
  · exact deliver2_rd ..
  · split
    · split
      · exact (callback_rd c ..).trans (afterRead_rd ..)
      · exact (callback_rd c ..).trans (deliver2_rd ..)
    · exact deliver2_rd ..

theorem readLoop_rd : ∀ (fuel : Nat) (c c' : Chan) (ans : List Ans), c.readLoop fuel ans = some c' → RdOnly c c'
  | 0, c, c', ans, h => by rw [Chan.readLoop] at h; rw [← Option.some.inj h]; exact .refl c
  | fuel + 1, c, c', ans, h => by
    rw [Chan.readLoop] at h
    split at h
    · cases h
    · split at h
      · rw [← Option.some.inj h]; exact .refl c
      · split at h
        · exact (deliver_rd c _ ans).trans (readLoop_rd fuel _ c' _ h)
        · split at h
          · rw [← Option.some.inj h]; rfl
          · rw [← Option.some.inj h]; exact .refl c

theorem MInv.rdOnly {m : Mux} {log : List Msg} {Q : Nat → List Frame} (h : MInv m log Q) {i : Nat} {c c' : Chan}
    (hc : m.chans[i]? = some c) (hr : RdOnly c c') : MInv (m.set i c') log Q := by
  unfold RdOnly at hr
  refine h.set' hc ?_ ?_ ?_ ?_ (Or.inl ?_) ?_ ?_ <;> rw [hr]

theorem SvcOk.set2 {m : Mux} (h : SvcOk m) {i : Nat} {c c' : Chan} (hc : m.chans[i]? = some c)
    (hs : c'.service.length < 65536) : SvcOk (m.set i c') := h.set hc hs

theorem SvcOk.addWr {m m' : Mux} (h : SvcOk m) {i : Nat} (e : m.addWr i = some m') : SvcOk m' := by
  rw [Mux.addWr] at e
  split at e
  · cases e
  · rename_i c hc
    split at e
    · rw [← Option.some.inj e]; exact h
    · split at e
      · cases e
      · rw [← Option.some.inj e]
        exact h.set hc (h i c hc)

theorem Setup.wrLen {c : Chan} {q : List Frame} {c' : Chan} {b : Bool} {q' : List Frame} {o : Option Msg}
    (h : Setup c q c' b q' o) : c'.wr.data.length = c.wr.data.length := by
  cases h with
  | nothing e => rw [e]
  | ack e => rw [e]
  | msg f _ _ _ _ e => rw [e]

theorem Start.wrLen {c : Chan} {q : List Frame} {c' : Chan} {q' : List Frame} {x : Msg} (h : Start c q c' q' x) :
    c'.wr.data.length = c.wr.data.length := by
  cases h with
  | newChan _ e => rw [e]
  | close _ _ _ e => rw [e]
  | data _ _ _ _ e => exact e.wrLen

theorem sendXmit_chans (m : Mux) (n : Nat) : (m.sendXmit n).chans = m.chans := by
  rw [Mux.sendXmit]; split <;> rfl

theorem TxStep.size {a b : TxSt} (s : TxStep a b) {n : Nat}
    (h : ∀ (i : Nat) (c : Chan), a.1.chans[i]? = some c → c.wr.data.length = n) :
    ∀ (i : Nat) (c : Chan), b.1.chans[i]? = some c → c.wr.data.length = n := by
  have key : ∀ {m : Mux} {i : Nat} {c c' : Chan}, m.chans[i]? = some c → c'.wr.data.length = c.wr.data.length →
      (∀ (i : Nat) (c : Chan), m.chans[i]? = some c → c.wr.data.length = n) →
      ∀ (j : Nat) (d : Chan), (m.chans.set i c')[j]? = some d → d.wr.data.length = n := by
    intro m i c c' hc hl h j d hd
    rw [set_get hc] at hd
    split at hd
    · rw [← Option.some.inj hd, hl]; exact h i c hc
    · exact h j d hd
  cases s with
  | skip i l c c' _ _ _ hc e => exact key hc (by rw [e]) h
  | start i l c c' q' x _ _ _ hc hs => exact key hc hs.wrLen h
  | part i n c _ hc => exact key hc rfl h
  | done i c c' w _ hc e => exact key hc (by rw [e]) h
  | xmit => intro i c hc; rw [sendXmit_chans] at hc; exact h i c hc
  | other b s e => rw [e]; exact h

theorem TxSteps.size {a b : TxSt} (s : TxSteps a b) {n : Nat}
    (h : ∀ (i : Nat) (c : Chan), a.1.chans[i]? = some c → c.wr.data.length = n) :
    ∀ (i : Nat) (c : Chan), b.1.chans[i]? = some c → c.wr.data.length = n := by
  induction s with
  | refl => exact h
  | tail _ s ih => exact s.size ih

/-- What is kept by all operations. -/
structure Inv (m : Mux) (log : List Msg) : Prop where
  tx : ∃ Q, MInv m log Q
  svc : SvcOk m
  size : ∀ (i : Nat) (c : Chan), m.chans[i]? = some c → c.wr.data.length = m.maxWrite

theorem Inv.addWr {m m' : Mux} {log : List Msg} (h : Inv m log) {i : Nat} (e : m.addWr i = some m') : Inv m' log := by
  obtain ⟨Q, hM⟩ := h.tx
  cases hc : m.chans[i]? with
  | none => rw [Mux.addWr] at e; simp only [hc] at e; cases e
  | some c =>
    obtain ⟨m2, e2, a1, ⟨⟨d, d', g1, g2, g3⟩, ⟨w, b, g4⟩⟩⟩ := hM.addWr hc
    rw [e] at e2
    have e2 := Option.some.inj e2
    subst e2
    refine ⟨⟨Q, a1⟩, h.svc.addWr e, ?_⟩
    intro j x hx
    have hmw : m'.maxWrite = m.maxWrite := by rw [g4]
    rw [g2, set_get g1] at hx
    rw [hmw]
    by_cases hji : j = i
    · rw [if_pos hji] at hx; rw [← Option.some.inj hx, g3]; exact h.size i d g1
    · rw [if_neg hji] at hx; exact h.size j x hx

/-- Changing a channel but not what it sends. -/
theorem Inv.set {m : Mux} {log : List Msg} (h : Inv m log) {i : Nat} {c c' : Chan}
    (hc : m.chans[i]? = some c) (h1 : c'.wr = c.wr) (h2 : c'.sg = c.sg) (h3 : c'.curLen = c.curLen) (h4 : c'.hdr = c.hdr)
    (h5 : c'.service = c.service ∨ c.sg = [] ∧ c'.service.length < 65536) (hw : c'.wrReady = c.wrReady)
    (hi : c'.inWrlist = c.inWrlist) : Inv (m.set i c') log := by
  obtain ⟨Q, hM⟩ := h.tx
  refine ⟨⟨Q, hM.set' hc h1 h2 h3 h4 (h5.imp id And.left) hw hi⟩, h.svc.set2 hc ?_, ?_⟩
  · rcases h5 with h5 | h5
    · rw [h5]; exact h.svc i c hc
    · exact h5.2
  · intro j x hx
    simp only [Mux.set] at hx
    rw [set_get hc] at hx
    by_cases hji : j = i
    · rw [if_pos hji] at hx; rw [← Option.some.inj hx, h1]; exact h.size i c hc
    · rw [if_neg hji] at hx; exact h.size j x hx

theorem Inv.congr {m m' : Mux} {log : List Msg} (h : Inv m log) (h1 : m'.chans = m.chans)
    (h2 : m'.sending = m.sending) (h3 : m'.wrchans = m.wrchans) (h4 : m'.xmit = m.xmit) (h5 : m'.xmitPos = m.xmitPos)
    (h6 : m'.out = m.out) (h7 : m'.maxWrite = m.maxWrite) : Inv m' log := by
  obtain ⟨Q, hM⟩ := h.tx
  refine ⟨⟨Q, hM.congr h1 h2 h3 h4 h5 h6⟩, ?_, ?_⟩
  · intro i c hc; rw [h1] at hc; exact h.svc i c hc
  · intro i c hc; rw [h1] at hc; rw [h7]; exact h.size i c hc

/-- A new channel at the end of the list. -/
theorem Inv.append {m : Mux} {log : List Msg} (h : Inv m log) {c : Chan} (hs : c.sg = []) (hl : c.curLen = 0)
    (hw : c.wr = { data := List.replicate m.maxWrite 0 }) (hm : 0 < m.maxWrite) (h1 : c.wrReady = false)
    (h2 : c.inWrlist = false) (hv : c.service.length < 65536) :
    Inv { m with chans := m.chans ++ [c] } log := by
  obtain ⟨Q, hM⟩ := h.tx
  have hg : ∀ (j : Nat) (d : Chan), (m.chans ++ [c])[j]? = some d →
      (j = m.chans.length ∧ d = c) ∨ (j < m.chans.length ∧ m.chans[j]? = some d) := by
    intro j d hd
    by_cases hj : j < m.chans.length
    · rw [List.getElem?_append_left hj] at hd; exact Or.inr ⟨hj, hd⟩
    · rw [List.getElem?_append_right (by omega)] at hd
      have hlt := (List.getElem?_eq_some_iff.mp hd).1
      simp only [List.length_singleton] at hlt
      have : j - m.chans.length = 0 := by omega
      rw [this] at hd
      exact Or.inl ⟨by omega, (Option.some.inj hd).symm⟩
  have hcur : ({ m with chans := m.chans ++ [c] } : Mux).cur = m.cur := by
    simp only [Mux.cur]
    cases hsd : m.sending with
    | none => rfl
    | some k =>
      simp only
      rw [List.getElem?_append_left (hM.sndIn k hsd)]
  have hns : m.sending ≠ some m.chans.length := fun e => by have := hM.sndIn _ e; omega
  have hnw : m.chans.length ∉ m.wrchans := fun e => by have := hM.wrIn _ e; omega
  refine ⟨⟨upd Q m.chans.length [], ?_⟩, ?_, ?_⟩
  · refine ⟨?_, ?_, ?_, ?_, ?_, hM.excl, hM.nodup, ?_, hM.xmit, hM.xs, ?_, hM.logOk⟩
    · intro j d hd
      rcases hg j d hd with ⟨rfl, rfl⟩ | ⟨hj, hd⟩
      · rw [upd_same]
        refine ⟨⟨[], hl.symm, ?_⟩, ?_, ?_, ?_, fun _ => hl⟩
        · rw [hw]
          exact ⟨by simpa using hm, rfl, by simp, by intro j hj; simp at hj⟩
        · intro f hf; cases hf
        · intro o n hx; rw [hs] at hx; cases hx
        · intro s hx; rw [hs] at hx; cases hx
      · rw [upd_other _ _ (by omega)]; exact hM.chan j d hd
    · intro j d hd
      rcases hg j d hd with ⟨rfl, rfl⟩ | ⟨hj, hd⟩
      · simp [hs, hns]
      · exact hM.snd j d hd
    · intro j hj
      simp only [List.length_append]
      have := hM.sndIn j hj
      omega
    · intro j d hd
      rcases hg j d hd with ⟨rfl, rfl⟩ | ⟨hj, hd⟩
      · simp [h1, hns, hnw]
      · exact hM.ready j d hd
    · intro j d hd
      rcases hg j d hd with ⟨rfl, rfl⟩ | ⟨hj, hd⟩
      · simp [h2, hnw]
      · exact hM.inList j d hd
    · intro j hj
      simp only [List.length_append]
      have := hM.wrIn j hj
      omega
    · rw [hcur]; exact hM.frame
  · intro j d hd
    rcases hg j d hd with ⟨rfl, rfl⟩ | ⟨hj, hd⟩
    · exact hv
    · exact h.svc j d hd
  · intro j d hd
    rcases hg j d hd with ⟨rfl, rfl⟩ | ⟨hj, hd⟩
    · rw [hw]; simp
    · exact h.size j d hd

/-- Emptying the write buffer of a channel that is not sending. -/
theorem Inv.clear {m : Mux} {log : List Msg} (h : Inv m log) {i : Nat} {c c' : Chan}
    (hc : m.chans[i]? = some c) (hs : c.sg = []) (h1 : c'.sg = []) (h2 : c'.curLen = 0)
    (h3 : c'.wr = { c.wr with pos := c'.wr.pos, len := 0 }) (h4 : c'.wr.pos = 0 ∨ c'.wr.pos = c.wr.pos)
    (hv : c'.service = c.service) (hw : c'.wrReady = c.wrReady) (hi : c'.inWrlist = c.inWrlist) :
    Inv (m.set i c') log := by
  obtain ⟨Q, hM⟩ := h.tx
  have ht := hM.chan _ _ hc
  obtain ⟨x, hx, hh⟩ := ht.ring
  refine ⟨⟨upd Q i [], hM.set hc ?_ (by simp [h1, hs]) (fun hne => absurd hs hne) hw hi⟩, ?_, ?_⟩
  · refine ⟨⟨[], h2.symm, ?_⟩, ?_, ?_, ?_, fun _ => h2⟩
    · rw [h3]
      refine ⟨?_, rfl, by simp, by intro j hj; simp at hj⟩
      have hp := hh.pos
      have hp0 := hh.pos0
      simp only
      omega
    · intro f hf; cases hf
    · intro o n hx; rw [h1] at hx; cases hx
    · intro s hx; rw [h1] at hx; cases hx
  · exact h.svc.set2 hc (by rw [hv]; exact h.svc i c hc)
  · intro j y hy
    simp only [Mux.set] at hy
    rw [set_get hc] at hy
    by_cases hji : j = i
    · rw [if_pos hji] at hy; rw [← Option.some.inj hy, h3]; exact h.size i c hc
    · rw [if_neg hji] at hy; exact h.size j y hy

/-- Putting a message into `xmit_data` when none is partly sent. -/
theorem Inv.putXmit {m m' : Mux} {log : List Msg} (h : Inv m log) (h0 : m.xmitPos = 0) (x : Msg) (hx : x.Ok)
    (h1 : m'.chans = m.chans) (h2 : m'.sending = m.sending) (h3 : m'.wrchans = m.wrchans) (h4 : m'.xmit = x.bytes)
    (h5 : m'.xmitPos = 0) (h6 : m'.out = m.out) (h7 : m'.maxWrite = m.maxWrite) : Inv m' log := by
  obtain ⟨Q, hM⟩ := h.tx
  have hcur : m'.cur = m.cur := by simp only [Mux.cur, h1, h2, h5, h0, if_pos]
  refine ⟨⟨Q, ?_⟩, ?_, ?_⟩
  · refine ⟨?_, ?_, ?_, ?_, ?_, ?_, ?_, ?_, ?_, ?_, ?_, hM.logOk⟩
    · rw [h1]; exact hM.chan
    · rw [h1, h2]; exact hM.snd
    · rw [h1, h2]; exact hM.sndIn
    · rw [h1, h2, h3]; exact hM.ready
    · rw [h1, h3]; exact hM.inList
    · rw [h2, h3]; exact hM.excl
    · rw [h3]; exact hM.nodup
    · rw [h1, h3]; exact hM.wrIn
    · exact Or.inr ⟨x, hx, h4, by rw [h4, h5]; exact x.bytes_pos⟩
    · rw [h5]; intro hne; exact absurd rfl hne
    · rw [h6, hcur]; exact hM.frame
  · intro i c hc; rw [h1] at hc; exact h.svc i c hc
  · intro i c hc; rw [h1] at hc; rw [h7]; exact h.size i c hc

theorem Inv.checkRead {m m' : Mux} {log : List Msg} (h : Inv m log) {i : Nat} {ans : List Ans}
    (e : m.checkRead i ans = some m') : Inv m' log := by
  rw [Mux.checkRead] at e
  split at e
  · cases e
  · rename_i c hc
    split at e
    · cases e
    · rename_i c' hr
      have hrd := readLoop_rd _ _ _ _ hr
      unfold RdOnly at hrd
      have hI : Inv (m.set i c') log := by
        refine h.set hc ?_ ?_ ?_ ?_ (Or.inl ?_) ?_ ?_ <;> rw [hrd]
      split at e
      · exact hI.addWr e
      · rw [← Option.some.inj e]; exact hI

theorem Inv.nextReq {m m' : Mux} {log : List Msg} (h : Inv m log) (e : m.nextReq = some m') : Inv m' log := by
  unfold Mux.nextReq at e
  cases ho : m.openchans with
  | nil =>
    rw [ho] at e
    simp only at e
    split at e
    · rw [← Option.some.inj e]; exact h
    · cases e
  | cons i l =>
    rw [ho] at e
    simp only at e
    cases hc : m.chans[i]? with
    | none => rw [hc] at e; cases e
    | some c =>
      rw [hc] at e
      simp only at e
      have h1 : Inv ({ m with openchans := l } : Mux) log := h.congr rfl rfl rfl rfl rfl rfl rfl
      have h2 := h1.set (i := i) (c := c) (c' := { c with inOpenChan := false }) hc rfl rfl rfl rfl (Or.inl rfl) rfl rfl
      exact h2.addWr e

theorem Inv.proto {m : Mux} {log : List Msg} (h : Inv m log) : Inv m.proto log := h.congr rfl rfl rfl rfl rfl rfl rfl

theorem Inv.onInit {m m' : Mux} {log : List Msg} (h : Inv m log) (e : m.onInit = some m') : Inv m' log := by
  rw [Mux.onInit] at e
  split at e
  · rw [← Option.some.inj e]; exact h.proto
  · split at e
    · rw [← Option.some.inj e]; exact h.congr rfl rfl rfl rfl rfl rfl rfl
    · refine Inv.nextReq ?_ e
      exact h.congr rfl rfl rfl rfl rfl rfl rfl

theorem Inv.onNew {m m' : Mux} {log : List Msg} {env : Env} (h : Inv m log) (hm : 0 < m.maxWrite)
    (e : m.onNew env = some m') : Inv m' log := by
  rw [Mux.onNew] at e
  split at e
  · split at e
    · cases e
    · split at e
      · cases e
      · rename_i i _ c hc
        split at e
        · rw [← Option.some.inj e]
          have := h.set (c' := { c with state := .pendingOpen, window := rd32 m.hdr 4 }) hc rfl rfl rfl rfl (Or.inl rfl)
            rfl rfl
          exact this.congr rfl rfl rfl rfl rfl rfl rfl
        · rw [← Option.some.inj e]
          have := h.set (c' := { c with state := .pendingOpen, window := rd32 m.hdr 4, remoteId := rd16 m.hdr 2 }) hc rfl
            rfl rfl rfl (Or.inl rfl) rfl rfl
          refine this.congr ?_ rfl rfl rfl rfl rfl rfl
          simp [Mux.set, List.set_set]
  · split at e
    · rw [← Option.some.inj e]; exact h.proto
    · split at e
      · rw [← Option.some.inj e]; exact h.congr rfl rfl rfl rfl rfl rfl rfl
      · rename_i id _
        split at e
        · rw [← Option.some.inj e]
          have := h.append
            (c := { m.newChan id with state := .pendingOpen, window := rd32 m.hdr 4, linked := false })
            rfl rfl rfl hm rfl rfl (by simp [Mux.newChan])
          exact this.congr rfl rfl rfl rfl rfl rfl rfl
        · rw [← Option.some.inj e]
          have := h.append
            (c := { m.newChan id with state := .pendingOpen, window := rd32 m.hdr 4, remoteId := rd16 m.hdr 2 }) rfl rfl rfl hm rfl rfl (by simp [Mux.newChan])
          exact this.congr rfl rfl rfl rfl rfl rfl rfl

theorem Inv.onRsp {m m' : Mux} {log : List Msg} (h : Inv m log) (hs : m.sending = none) (e : m.onRsp = some m') :
    Inv m' log := by
  rw [Mux.onRsp] at e
  split at e
  · rw [← Option.some.inj e]; exact h.proto
  · split at e
    · cases e
    · rename_i i _ c hc
      split at e
      · rw [← Option.some.inj e]; exact h.proto
      · split at e
        · rw [← Option.some.inj e]; exact h.proto
        · simp only at e
          split at e
          · rw [← Option.some.inj e]
            have := h.set (c' := { c with remoteId := rd16 m.hdr 8, window := rd32 m.hdr 4 }) hc rfl rfl rfl rfl
              (Or.inl rfl) rfl rfl
            exact this.congr rfl rfl rfl rfl rfl rfl rfl
          · split at e
            · cases e
            · split at e
              · refine Inv.nextReq ?_ e
                have := h.set (c' := { c with
                      remoteId := rd16 m.hdr 8, window := rd32 m.hdr 4,
                      err := rd16 m.hdr 10, state := .closed }) hc rfl rfl rfl rfl (Or.inl rfl) rfl rfl
                exact this.congr rfl hs.symm rfl rfl rfl rfl rfl
              · split at e
                · split at e
                  · cases e
                  · rename_i m2 ha
                    refine Inv.nextReq (Inv.addWr ?_ ha) e
                    have := h.set (c' := { c with
                      remoteId := rd16 m.hdr 8, window := rd32 m.hdr 4, err := 0,
                      state := .inClose, sendClose := true }) hc rfl rfl rfl rfl (Or.inl rfl) rfl rfl
                    exact this.congr rfl hs.symm rfl rfl rfl rfl rfl
                · refine Inv.nextReq ?_ e
                  have := h.set (c' := { c with
                      remoteId := rd16 m.hdr 8, window := rd32 m.hdr 4, err := 0,
                      state := .opened }) hc rfl rfl rfl rfl (Or.inl rfl) rfl rfl
                  exact this.congr rfl hs.symm rfl rfl rfl rfl rfl

theorem Inv.sgNil {m : Mux} {log : List Msg} (h : Inv m log) {i : Nat} {c : Chan} (hc : m.chans[i]? = some c)
    (hs : m.sending ≠ some i) : c.sg = [] := by
  obtain ⟨Q, hM⟩ := h.tx
  exact Decidable.byContradiction fun hne => hs ((hM.snd _ _ hc).mp hne)

theorem Inv.curZero {m : Mux} {log : List Msg} (h : Inv m log) {i : Nat} {c : Chan} (hc : m.chans[i]? = some c)
    (hs : c.sg = []) : c.curLen = 0 := by
  obtain ⟨Q, hM⟩ := h.tx
  exact (hM.chan _ _ hc).cur hs

theorem Inv.onClose {m m' : Mux} {log : List Msg} (h : Inv m log)
    (hs : ∀ i, m.find (rd16 m.hdr 2) = some i → m.sending ≠ some i) (e : m.onClose = some m') : Inv m' log := by
  rw [Mux.onClose] at e
  split at e
  · rw [← Option.some.inj e]; exact h.proto
  · rename_i i hi
    split at e
    · cases e
    · rename_i c hc
      have hsg := h.sgNil hc (hs i hi)
      have hcz := h.curZero hc hsg
      split at e
      · rw [← Option.some.inj e]; exact h.proto
      · split at e
        · rw [← Option.some.inj e]
          exact h.clear hc hsg hsg hcz rfl (Or.inr rfl) rfl rfl rfl
        · refine Inv.addWr (h.clear (c' := { c with
                      err := if rd16 m.hdr 4 = 0 then geRemClose else rd16 m.hdr 4,
                      state := .inRemClose, sendClose := true,
                      wr := { c.wr with len := 0 } }) hc hsg hsg hcz rfl (Or.inr rfl) rfl
            rfl rfl) e

theorem Inv.onData {m m' : Mux} {log : List Msg} (h : Inv m log) (e : m.onData = some m') : Inv m' log := by
  rw [Mux.onData] at e
  split at e
  · rw [← Option.some.inj e]; exact h.proto
  · rename_i i hi
    split at e
    · cases e
    · rename_i c hc
      split at e
      · rw [← Option.some.inj e]; exact h.proto
      · simp only at e
        split at e
        · rw [← Option.some.inj e]; exact h.proto
        · have h1 := h.set (c' := { c with sentUnacked := c.sentUnacked - rd32 m.hdr 4 }) hc rfl rfl rfl rfl (Or.inl rfl)
            rfl rfl
          have h2 : Inv { m.set i { c with sentUnacked := c.sentUnacked - rd32 m.hdr 4 } with
              curr := some i, dataPos := 0, inHdr := false } log := h1.congr rfl rfl rfl rfl rfl rfl rfl
          split at e
          · exact h2.addWr e
          · rw [← Option.some.inj e]; exact h2

theorem Inv.newDone {m m' : Mux} {log : List Msg} {env : Env} (h : Inv m log) {i : Nat} {c : Chan}
    (hc : m.chans[i]? = some c) (hw : m.state = .waitOpen → m.xmitPos = 0) (e : m.newDone i c env = some m') :
    Inv m' log := by
  have hx0 : m.xmit.isEmpty = true → m.xmitPos = 0 := by
    intro hx
    obtain ⟨Q, hM⟩ := h.tx
    rcases hM.xmit with hx2 | ⟨x, _, hx2, hlt⟩
    · exact hx2.2
    · rw [List.isEmpty_iff.mp hx] at hlt; simp at hlt
  rw [Mux.newDone] at e
  split at e
  · rename_i hst
    rw [← Option.some.inj e]
    have h1 := h.set (c' := { c with state := .opened }) hc rfl rfl rfl rfl (Or.inl rfl) rfl rfl
    exact h1.putXmit (hw hst) (.rsp c.remoteId c.rd.data.length c.id 0) (by simp [Msg.Ok]) rfl rfl rfl rfl rfl rfl rfl
  · split at e
    · rw [← Option.some.inj e]
      have h1 := h.set (c' := { c with state := .opened, linked := false }) hc rfl rfl rfl rfl (Or.inl rfl) rfl rfl
      exact h1.congr rfl rfl rfl rfl rfl rfl rfl
    · rename_i hne
      have hx := hx0 (by simpa using hne)
      split at e
      · rw [← Option.some.inj e]
        have h1 := h.set (c' := { c with state := .closed }) hc rfl rfl rfl rfl (Or.inl rfl) rfl rfl
        exact h1.putXmit hx (.rsp c.remoteId c.rd.data.length c.id env.newErr) (by simp [Msg.Ok]) rfl rfl rfl rfl rfl rfl
          rfl
      · split at e
        · split at e
          · cases e
          · rename_i m2 ha
            rw [← Option.some.inj e]
            have h1 := h.set (c' := { c with state := .opened, recvUnacked := c.service.length }) hc rfl rfl rfl rfl
              (Or.inl rfl) rfl rfl
            have h2 : Inv ((m.set i { c with state := .opened, recvUnacked := c.service.length }).sendRsp c.remoteId
                c.rd.data.length c.id 0) log :=
              h1.putXmit hx (.rsp c.remoteId c.rd.data.length c.id 0) (by simp [Msg.Ok]) rfl rfl rfl rfl rfl rfl rfl
            exact (h2.addWr ha).congr rfl rfl rfl rfl rfl rfl rfl
        · rw [← Option.some.inj e]
          have h1 := h.set (c' := { c with state := .opened }) hc rfl rfl rfl rfl (Or.inl rfl) rfl rfl
          exact h1.putXmit hx (.rsp c.remoteId c.rd.data.length c.id 0) (by simp [Msg.Ok]) rfl rfl rfl rfl rfl rfl rfl

theorem Inv.dataDone {m m' : Mux} {log : List Msg} {env : Env} (h : Inv m log) {i : Nat}
    (e : m.dataDone i env = some m') : Inv m' log := by
  rw [Mux.dataDone] at e
  split at e
  · cases e
  · rename_i m2 h2
    rw [← Option.some.inj e]
    have : Inv m2 log := by
      split at h2
      · exact h.checkRead h2
      · rw [← Option.some.inj h2]; exact h
    exact this.congr rfl rfl rfl rfl rfl rfl rfl

/-- What must not happen when the byte `b` arrives for the messages to stay in order: a `NEW_CHANNEL_RSP` must not be
completed while a channel sends, nor a `CLOSE_CHANNEL` for the channel that sends; and the first `NEW_CHANNEL` must not be
completed while `xmit_data` is partly sent. -/
def RxGuard (m : Mux) (b : UInt8) : Prop :=
  (m.inHdr = true → m.hdrPos ≠ 0 → ¬ 1 + m.hdrPos < m.hdrSize →
    (m.msgid = 3 → m.sending = none)
    ∧ (m.msgid = 4 → m.sending = none ∨ m.find (rd16 (m.hdr.set m.hdrPos b) 2) ≠ m.sending))
  ∧ (m.inHdr = false → m.msgid = 2 → (m.state = .waitOpen → m.xmitPos = 0) ∧ (m.sending = none ∨ m.curr ≠ m.sending))

instance (m : Mux) (b : UInt8) : Decidable (RxGuard m b) := by unfold RxGuard; infer_instance

theorem ne_sending {m : Mux} {o : Option Nat} (h : m.sending = none ∨ o ≠ m.sending) {i : Nat} (ho : o = some i) :
    m.sending ≠ some i := by
  rcases h with h | h
  · rw [h]; simp
  · intro e; exact h (ho.trans e.symm)

theorem Inv.rxHdr {m m' : Mux} {log : List Msg} {env : Env} {b : UInt8} (h : Inv m log) (hm : 0 < m.maxWrite)
    (hin : m.inHdr = true) (hg : RxGuard m b) (e : m.rxHdr b env = some m') : Inv m' log := by
  rw [Mux.rxHdr] at e
  split at e
  · simp only at e
    split at e
    · rw [← Option.some.inj e]; exact h.congr rfl rfl rfl rfl rfl rfl rfl
    · split at e
      · rw [← Option.some.inj e]; exact h.congr rfl rfl rfl rfl rfl rfl rfl
      · split at e
        · rw [← Option.some.inj e]; exact h.congr rfl rfl rfl rfl rfl rfl rfl
        · rw [← Option.some.inj e]; exact h.congr rfl rfl rfl rfl rfl rfl rfl
  · rename_i hp
    split at e
    · rw [← Option.some.inj e]; exact h.congr rfl rfl rfl rfl rfl rfl rfl
    · rename_i hlt
      obtain ⟨g1, g2⟩ := hg.1 hin hp hlt
      rw [Mux.onHdr] at e
      have h1 : Inv { m with hdr := m.hdr.set m.hdrPos b, hdrPos := 0 } log := h.congr rfl rfl rfl rfl rfl rfl rfl
      simp only at e
      split at e
      · exact h1.onInit e
      · split at e
        · rw [← Option.some.inj e]; exact h1.proto
        · split at e
          · exact h1.onNew hm e
          · split at e
            · rename_i h3
              exact h1.onRsp (g1 h3) e
            · split at e
              · rename_i h4
                exact h1.onClose (fun i hi => ne_sending (g2 h4) hi) e
              · split at e
                · exact h1.onData e
                · cases e

theorem Inv.rxLen {m m' : Mux} {log : List Msg} {env : Env} {b : UInt8} (h : Inv m log)
    (hin : m.inHdr = false) (hg : RxGuard m b) (e : m.rxLen b env = some m') : Inv m' log := by
  rw [Mux.rxLen] at e
  simp only at e
  have h1 : Inv { m with dataSize := m.dataSize + b.toNat, dataPos := 2 } log := h.congr rfl rfl rfl rfl rfl rfl rfl
  split at e
  · cases e
  · rename_i i hi
    split at e
    · cases e
    · rename_i c hc
      split at e
      · rename_i h2
        obtain ⟨g1, g2⟩ := hg.2 hin h2
        have hsg := h.sgNil hc (ne_sending g2 hi)
        have h3 := h1.set (i := i) (c := c) (c' := { c with service := [] }) hc rfl rfl rfl rfl
          (Or.inr ⟨hsg, by simp⟩) rfl rfl
        split at e
        · refine h3.newDone ?_ g1 e
          simp only [Mux.set]
          rw [set_get (m := m) hc, if_pos rfl]
        · rw [← Option.some.inj e]; exact h3
      · split at e
        · split at e
          · exact h1.dataDone e
          · split at e
            · rw [← Option.some.inj e]; exact h1.proto
            · split at e
              · cases e
              · rename_i r hr
                rw [← Option.some.inj e]
                exact h1.set (i := i) (c := c) hc rfl rfl rfl rfl (Or.inl rfl) rfl rfl
        · cases e

theorem Inv.rxBody {m m' : Mux} {log : List Msg} {env : Env} {b : UInt8} (h : Inv m log)
    (hin : m.inHdr = false) (hg : RxGuard m b) (hsz : m.dataSize < 65536)
    (e : m.rxBody b env = some m') : Inv m' log := by
  rw [Mux.rxBody] at e
  split at e
  · cases e
  · rename_i i hi
    split at e
    · cases e
    · rename_i c hc
      split at e
      · rename_i h2
        split at e
        · cases e
        · rename_i hlen
          obtain ⟨g1, g2⟩ := hg.2 hin h2
          have hsg := h.sgNil hc (ne_sending g2 hi)
          have h3 := h.set (i := i) (c := c) (c' := { c with service := c.service ++ [b] }) hc rfl rfl rfl rfl
            (Or.inr ⟨hsg, by simp; omega⟩) rfl rfl
          simp only at e
          split at e
          · rw [← Option.some.inj e]; exact h3.congr rfl rfl rfl rfl rfl rfl rfl
          · refine h3.newDone ?_ g1 e
            simp only [Mux.set]
            rw [set_get (m := m) hc, if_pos rfl]
      · split at e
        · split at e
          · cases e
          · rename_i r hr
            have h3 := h.set (i := i) (c := c) (c' := { c with rd := r, rcv := addLast c.rcv b }) hc rfl rfl rfl rfl
              (Or.inl rfl) rfl rfl
            simp only at e
            split at e
            · rw [← Option.some.inj e]; exact h3.congr rfl rfl rfl rfl rfl rfl rfl
            · exact h3.dataDone e
        · cases e

theorem Inv.rxByte {m m' : Mux} {log : List Msg} {env : Env} {b : UInt8} (h : Inv m log) (hm : 0 < m.maxWrite)
    (hg : RxGuard m b) (hsz : m.dataSize < 65536) (e : m.rxByte b env = some m') : Inv m' log := by
  rw [Mux.rxByte] at e
  split at e
  · rw [← Option.some.inj e]; exact h.congr rfl rfl rfl rfl rfl rfl rfl
  · split at e
    · rename_i hin; exact h.rxHdr hm hin hg e
    · rename_i hin
      have hin : m.inHdr = false := by simpa using hin
      split at e
      · rw [← Option.some.inj e]; exact h.congr rfl rfl rfl rfl rfl rfl rfl
      · split at e
        · exact h.rxLen hin hg e
        · exact h.rxBody hin hg hsz e

/-! ## The parts used for receiving -/

/-- Nothing changed in the state of the receiver. -/
structure RxSame (m m' : Mux) : Prop where
  inHdr : m'.inHdr = m.inHdr
  hdr : m'.hdr = m.hdr
  hdrPos : m'.hdrPos = m.hdrPos
  hdrSize : m'.hdrSize = m.hdrSize
  msgid : m'.msgid = m.msgid
  dataPos : m'.dataPos = m.dataPos
  dataSize : m'.dataSize = m.dataSize
  curr : m'.curr = m.curr
  maxRead : m'.maxRead = m.maxRead
  maxWrite : m'.maxWrite = m.maxWrite

theorem RxSame.refl (m : Mux) : RxSame m m := ⟨rfl, rfl, rfl, rfl, rfl, rfl, rfl, rfl, rfl, rfl⟩

theorem RxSame.trans {a b c : Mux} (h : RxSame a b) (h2 : RxSame b c) : RxSame a c :=
  ⟨h2.1.trans h.1, h2.2.trans h.2, h2.3.trans h.3, h2.4.trans h.4, h2.5.trans h.5, h2.6.trans h.6, h2.7.trans h.7,
   h2.8.trans h.8, h2.9.trans h.9, h2.10.trans h.10⟩

theorem RxSame.after {a b c : Mux} (h2 : RxSame b c) (h : RxSame a b) : RxSame a c := h.trans h2

theorem RxSame.set (m : Mux) (i : Nat) (c : Chan) : RxSame m (m.set i c) := ⟨rfl, rfl, rfl, rfl, rfl, rfl, rfl, rfl, rfl, rfl⟩

theorem RxSame.addWr {m m' : Mux} {i : Nat} (e : m.addWr i = some m') : RxSame m m' := by
  rw [Mux.addWr] at e
  split at e
  · cases e
  · split at e
    · rw [← Option.some.inj e]; exact .refl m
    · split at e
      · cases e
      · rw [← Option.some.inj e]; exact ⟨rfl, rfl, rfl, rfl, rfl, rfl, rfl, rfl, rfl, rfl⟩

theorem RxSame.checkRead {m m' : Mux} {i : Nat} {ans : List Ans} (e : m.checkRead i ans = some m') : RxSame m m' := by
  rw [Mux.checkRead] at e
  split at e
  · cases e
  · split at e
    · cases e
    · split at e
      · exact (RxSame.set m _ _).trans (RxSame.addWr e)
      · rw [← Option.some.inj e]; exact .set m _ _

theorem RxSame.nextReq {m m' : Mux} (e : m.nextReq = some m') : RxSame m m' := by
  rw [Mux.nextReq] at e
  split at e
  · split at e
    · cases e
    · exact (RxSame.addWr e).after ⟨rfl, rfl, rfl, rfl, rfl, rfl, rfl, rfl, rfl, rfl⟩
  · split at e
    · rw [← Option.some.inj e]; exact .refl m
    · cases e

theorem RxSame.sendXmit (m : Mux) (n : Nat) : RxSame m (m.sendXmit n) := by
  rw [Mux.sendXmit]; split <;> exact ⟨rfl, rfl, rfl, rfl, rfl, rfl, rfl, rfl, rfl, rfl⟩

theorem RxSame.step {a b : TxSt} (h : TxStep a b) : RxSame a.1 b.1 := by
  cases h with
  | skip => exact ⟨rfl, rfl, rfl, rfl, rfl, rfl, rfl, rfl, rfl, rfl⟩
  | start => exact ⟨rfl, rfl, rfl, rfl, rfl, rfl, rfl, rfl, rfl, rfl⟩
  | part => exact ⟨rfl, rfl, rfl, rfl, rfl, rfl, rfl, rfl, rfl, rfl⟩
  | done => exact ⟨rfl, rfl, rfl, rfl, rfl, rfl, rfl, rfl, rfl, rfl⟩
  | xmit => exact .sendXmit ..
  | other b s e => rw [e]; exact ⟨rfl, rfl, rfl, rfl, rfl, rfl, rfl, rfl, rfl, rfl⟩

theorem RxSame.steps {a b : TxSt} (h : TxSteps a b) : RxSame a.1 b.1 := by
  induction h with
  | refl => exact .refl _
  | tail _ s ih => exact ih.trans (.step s)

/-- The length field is a sixteen bit number. -/
structure LenOk (m m' : Mux) : Prop where
  size : m'.dataSize = m.dataSize
  pos : m'.dataPos = m.dataPos ∨ m'.dataPos ≠ 1
  maxRead : m'.maxRead = m.maxRead
  maxWrite : m'.maxWrite = m.maxWrite

theorem LenOk.same {m m' : Mux} (h : RxSame m m') : LenOk m m' := ⟨h.dataSize, Or.inl h.dataPos, h.maxRead, h.maxWrite⟩
theorem LenOk.refl (m : Mux) : LenOk m m := ⟨rfl, Or.inl rfl, rfl, rfl⟩

theorem LenOk.trans {a b c : Mux} (h : LenOk a b) (h2 : LenOk b c) : LenOk a c := by
  refine ⟨h2.1.trans h.1, ?_, h2.3.trans h.3, h2.4.trans h.4⟩
  rcases h2.pos with e | e
  · rw [e]; exact h.pos
  · exact Or.inr e

theorem LenOk.after {a b c : Mux} (h2 : LenOk b c) (h : LenOk a b) : LenOk a c := h.trans h2

theorem LenOk.onHdr' {m m' : Mux} {env : Env}
    (e : (if m.msgid = 1 then m.onInit
      else if m.state = .uninit then some m.proto
      else if m.msgid = 2 then m.onNew env
      else if m.msgid = 3 then m.onRsp
      else if m.msgid = 4 then m.onClose
      else if m.msgid = 5 then m.onData
      else none) = some m') : LenOk m m' := by
  split at e
  · rw [Mux.onInit] at e
    split at e
    · rw [← Option.some.inj e]; exact ⟨rfl, Or.inl rfl, rfl, rfl⟩
    · split at e
      · rw [← Option.some.inj e]; exact ⟨rfl, Or.inl rfl, rfl, rfl⟩
      · exact LenOk.after (.same (.nextReq e)) ⟨rfl, Or.inl rfl, rfl, rfl⟩
  · split at e
    · rw [← Option.some.inj e]; exact ⟨rfl, Or.inl rfl, rfl, rfl⟩
    · split at e
      · rw [Mux.onNew] at e
        split at e
        · split at e
          · cases e
          · split at e
            · cases e
            · split at e
              · rw [← Option.some.inj e]; exact ⟨rfl, Or.inl rfl, rfl, rfl⟩
              · rw [← Option.some.inj e]; exact ⟨rfl, Or.inr (by simp), rfl, rfl⟩
        · split at e
          · rw [← Option.some.inj e]; exact ⟨rfl, Or.inl rfl, rfl, rfl⟩
          · split at e
            · rw [← Option.some.inj e]; exact ⟨rfl, Or.inl rfl, rfl, rfl⟩
            · split at e
              · rw [← Option.some.inj e]; exact ⟨rfl, Or.inl rfl, rfl, rfl⟩
              · rw [← Option.some.inj e]; exact ⟨rfl, Or.inr (by simp), rfl, rfl⟩
      · split at e
        · rw [Mux.onRsp] at e
          split at e
          · rw [← Option.some.inj e]; exact ⟨rfl, Or.inl rfl, rfl, rfl⟩
          · split at e
            · cases e
            · split at e
              · rw [← Option.some.inj e]; exact ⟨rfl, Or.inl rfl, rfl, rfl⟩
              · split at e
                · rw [← Option.some.inj e]; exact ⟨rfl, Or.inl rfl, rfl, rfl⟩
                · simp only at e
                  split at e
                  · rw [← Option.some.inj e]; exact ⟨rfl, Or.inl rfl, rfl, rfl⟩
                  · split at e
                    · cases e
                    · split at e
                      · exact LenOk.after (.same (.nextReq e)) ⟨rfl, Or.inl rfl, rfl, rfl⟩
                      · split at e
                        · split at e
                          · cases e
                          · rename_i ha
                            exact LenOk.after (.trans (.same (.addWr ha)) (.same (.nextReq e))) ⟨rfl, Or.inl rfl, rfl, rfl⟩
                        · exact LenOk.after (.same (.nextReq e)) ⟨rfl, Or.inl rfl, rfl, rfl⟩
        · split at e
          · rw [Mux.onClose] at e
            split at e
            · rw [← Option.some.inj e]; exact ⟨rfl, Or.inl rfl, rfl, rfl⟩
            · split at e
              · cases e
              · split at e
                · rw [← Option.some.inj e]; exact ⟨rfl, Or.inl rfl, rfl, rfl⟩
                · simp only at e
                  split at e
                  · rw [← Option.some.inj e]; exact ⟨rfl, Or.inl rfl, rfl, rfl⟩
                  · exact LenOk.after (.same (.addWr e)) ⟨rfl, Or.inl rfl, rfl, rfl⟩
          · split at e
            · rw [Mux.onData] at e
              split at e
              · rw [← Option.some.inj e]; exact ⟨rfl, Or.inl rfl, rfl, rfl⟩
              · split at e
                · cases e
                · split at e
                  · rw [← Option.some.inj e]; exact ⟨rfl, Or.inl rfl, rfl, rfl⟩
                  · simp only at e
                    split at e
                    · rw [← Option.some.inj e]; exact ⟨rfl, Or.inl rfl, rfl, rfl⟩
                    · split at e
                      · exact LenOk.after (.same (.addWr e)) ⟨rfl, Or.inr (by simp), rfl, rfl⟩
                      · rw [← Option.some.inj e]; exact ⟨rfl, Or.inr (by simp), rfl, rfl⟩
            · cases e

theorem LenOk.onHdr {m m' : Mux} {env : Env} (e : m.onHdr env = some m') : LenOk m m' := by
  rw [Mux.onHdr] at e
  exact LenOk.after (LenOk.onHdr' (m := { m with hdrPos := 0 }) (env := env) e) ⟨rfl, Or.inl rfl, rfl, rfl⟩

theorem LenOk.newDone {m m' : Mux} {env : Env} {i : Nat} {c : Chan} (e : m.newDone i c env = some m') : LenOk m m' := by
  rw [Mux.newDone] at e
  split at e
  · rw [← Option.some.inj e]; exact ⟨rfl, Or.inl rfl, rfl, rfl⟩
  · split at e
    · rw [← Option.some.inj e]; exact ⟨rfl, Or.inl rfl, rfl, rfl⟩
    · split at e
      · rw [← Option.some.inj e]; exact ⟨rfl, Or.inl rfl, rfl, rfl⟩
      · split at e
        · split at e
          · cases e
          · rename_i ha
            rw [← Option.some.inj e]
            have h2 := LenOk.same (.addWr ha)
            exact LenOk.trans (LenOk.after h2 ⟨rfl, Or.inl rfl, rfl, rfl⟩) ⟨rfl, Or.inl rfl, rfl, rfl⟩
        · rw [← Option.some.inj e]; exact ⟨rfl, Or.inl rfl, rfl, rfl⟩

theorem LenOk.dataDone {m m' : Mux} {env : Env} {i : Nat} (e : m.dataDone i env = some m') : LenOk m m' := by
  rw [Mux.dataDone] at e
  split at e
  · cases e
  · rename_i m2 h2
    rw [← Option.some.inj e]
    have h3 : LenOk m m2 := by
      split at h2
      · exact .same (.checkRead h2)
      · rw [← Option.some.inj h2]; exact .refl m
    exact h3.trans ⟨rfl, Or.inl rfl, rfl, rfl⟩

/-- The length read so far is that of a sixteen bit number. -/
def Len16 (m : Mux) : Prop := m.dataSize < 65536 ∧ (m.dataPos = 1 → m.dataSize ≤ 65280)

theorem Len16.of {m m' : Mux} (h : Len16 m) (hl : LenOk m m') : Len16 m' := by
  refine ⟨by rw [hl.size]; exact h.1, fun hp => ?_⟩
  rw [hl.size]
  rcases hl.pos with e | e
  · exact h.2 (by rw [← e]; exact hp)
  · exact absurd hp e

theorem Len16.rxByte {m m' : Mux} {env : Env} {b : UInt8} (h : Len16 m) (e : m.rxByte b env = some m') :
    Len16 m' ∧ m'.maxWrite = m.maxWrite ∧ m'.maxRead = m.maxRead := by
  have hb : b.toNat < 256 := b.toNat_lt
  have of : LenOk m m' → Len16 m' ∧ m'.maxWrite = m.maxWrite ∧ m'.maxRead = m.maxRead :=
    fun hl => ⟨h.of hl, hl.maxWrite, hl.maxRead⟩
  rw [Mux.rxByte] at e
  split at e
  · rw [← Option.some.inj e]; exact ⟨h, rfl, rfl⟩
  · split at e
    · apply of
      rw [Mux.rxHdr] at e
      split at e
      · simp only at e
        split at e
        · rw [← Option.some.inj e]; exact ⟨rfl, Or.inl rfl, rfl, rfl⟩
        · split at e
          · rw [← Option.some.inj e]; exact ⟨rfl, Or.inl rfl, rfl, rfl⟩
          · split at e
            · rw [← Option.some.inj e]; exact ⟨rfl, Or.inl rfl, rfl, rfl⟩
            · rw [← Option.some.inj e]; exact ⟨rfl, Or.inl rfl, rfl, rfl⟩
      · split at e
        · rw [← Option.some.inj e]; exact ⟨rfl, Or.inl rfl, rfl, rfl⟩
        · exact LenOk.after (LenOk.onHdr e) ⟨rfl, Or.inl rfl, rfl, rfl⟩
    · split at e
      · rw [← Option.some.inj e]
        refine ⟨⟨?_, fun _ => ?_⟩, rfl, rfl⟩
        · show b.toNat * 256 < 65536; omega
        · show b.toNat * 256 ≤ 65280; omega
      · split at e
        · rename_i h1
          have h65 := h.2 h1
          have hx : Len16 { m with dataSize := m.dataSize + b.toNat, dataPos := 2 } :=
            ⟨by simp only; omega, fun h2 => by simp at h2⟩
          suffices LenOk { m with dataSize := m.dataSize + b.toNat, dataPos := 2 } m' from
            ⟨hx.of this, this.maxWrite, this.maxRead⟩
          rw [Mux.rxLen] at e
          simp only at e
          split at e
          · cases e
          · split at e
            · cases e
            · split at e
              · split at e
                · exact LenOk.after (.newDone e) ⟨rfl, Or.inl rfl, rfl, rfl⟩
                · rw [← Option.some.inj e]; exact ⟨rfl, Or.inl rfl, rfl, rfl⟩
              · split at e
                · split at e
                  · exact .dataDone e
                  · split at e
                    · rw [← Option.some.inj e]; exact ⟨rfl, Or.inl rfl, rfl, rfl⟩
                    · split at e
                      · cases e
                      · rw [← Option.some.inj e]; exact ⟨rfl, Or.inl rfl, rfl, rfl⟩
                · cases e
        · rename_i hn0 hn1
          apply of
          rw [Mux.rxBody] at e
          split at e
          · cases e
          · split at e
            · cases e
            · split at e
              · split at e
                · cases e
                · simp only at e
                  split at e
                  · rw [← Option.some.inj e]; exact ⟨rfl, Or.inr (by simp; omega), rfl, rfl⟩
                  · exact LenOk.after (.newDone e) ⟨rfl, Or.inl rfl, rfl, rfl⟩
              · split at e
                · split at e
                  · cases e
                  · simp only at e
                    split at e
                    · rw [← Option.some.inj e]; exact ⟨rfl, Or.inr (by simp; omega), rfl, rfl⟩
                    · exact LenOk.after (.dataDone e) ⟨rfl, Or.inl rfl, rfl, rfl⟩
                · cases e

/-! ## All operations -/

/-- What must not happen for the messages to stay in order: besides `RxGuard`, a channel must not be opened while it waits
to send, nor the whole mux while a message is partly sent. -/
def Guard (m : Mux) : Op → Prop
  | .opn i => (∀ c ∈ m.chans[i]?, c.wrReady = false) ∧ (m.state = .closed → m.sending = none ∧ m.xmitPos = 0)
  | .recv b _ => RxGuard m b
  | _ => True

instance (m : Mux) (op : Op) : Decidable (Guard m op) := by
  cases op <;> unfold Guard <;> infer_instance

/-- No operation of a history does what must not happen. -/
def Guarded (m : Mux) : List Op → Bool
  | [] => true
  | op :: ops =>
    decide (Guard m op) &&
      match m.step op with
      | none => true
      | some m => Guarded m ops

theorem Inv.step {m m' : Mux} {log : List Msg} {op : Op} (h : Inv m log) (h16 : Len16 m) (hm : 10 ≤ m.maxWrite)
    (hm2 : m.maxWrite ≤ 65538) (hg : Guard m op) (e : m.step op = some m') :
    (∃ log', Inv m' log') ∧ Len16 m' ∧ m'.maxWrite = m.maxWrite := by
  cases op with
  | alloc id service =>
    simp only [Mux.step, Mux.alloc] at e
    have e := Option.some.inj e
    split at e
    · rw [← e]; exact ⟨⟨_, h⟩, h16, rfl⟩
    · rw [← e]
      refine ⟨⟨log, ?_⟩, h16, rfl⟩
      exact h.append (c := { m.newChan id with service := service }) rfl rfl rfl (by omega) rfl rfl (by simp only; omega)
  | opn i =>
    obtain ⟨g1, g2⟩ := hg
    simp only [Mux.step, Mux.open] at e
    split at e
    · rename_i hst
      obtain ⟨g3, g4⟩ := g2 hst
      rw [Mux.openFirst] at e
      split at e
      · cases e
      · rename_i c hc
        have hsg := h.sgNil hc (by rw [g3]; simp)
        have hw := g1 c hc
        have hx : ∀ c' : Chan, c'.sg = [] → c'.curLen = 0 → c'.wr = { c.wr with pos := 0, len := 0 } →
            c'.service = c.service → c'.wrReady = false → c'.inWrlist = c.inWrlist →
            ∀ m2 : Mux, m2.chans = m.chans.set i c' → m2.sending = none → m2.wrchans = m.wrchans →
              m2.xmit = Msg.init.bytes → m2.xmitPos = 0 → m2.out = m.out → m2.maxWrite = m.maxWrite → Inv m2 log := by
          intro c' a1 a2 a3 a4 a5 a6 m2 b1 b2 b3 b4 b5 b6 b7
          have h1 := h.clear (c' := c') hc hsg a1 a2 (by rw [a3]) (Or.inl (by rw [a3])) a4 (by rw [a5, hw]) a6
          exact h1.putXmit g4 .init (by simp [Msg.Ok]) b1 (by rw [b2]; exact g3.symm) b3 b4 b5 b6 b7
        simp only at e
        split at e
        · rw [← Option.some.inj e]
          exact ⟨⟨log, hx { c.reinit with sendNew := true, state := .inOpen, inOpenChan := true } hsg rfl rfl rfl rfl rfl _
            rfl rfl rfl rfl rfl rfl rfl⟩, h16, rfl⟩
        · rw [← Option.some.inj e]
          exact ⟨⟨log, hx { c.reinit with state := .inOpen } hsg rfl rfl rfl rfl rfl _ rfl rfl rfl rfl rfl rfl rfl⟩, h16,
            rfl⟩
    · rw [Mux.openChan] at e
      split at e
      · cases e
      · rename_i c hc
        have hw := g1 c hc
        split at e
        · rw [← Option.some.inj e]; exact ⟨⟨_, h⟩, h16, rfl⟩
        · have hns : m.sending ≠ some i := by
            intro hs
            obtain ⟨Q, hM⟩ := h.tx
            have := (hM.ready i c hc).mpr (Or.inr hs)
            rw [hw] at this; cases this
          have hsg := h.sgNil hc hns
          have hx : ∀ c' : Chan, c'.sg = [] → c'.curLen = 0 → c'.wr = { c.wr with pos := 0, len := 0 } →
              c'.service = c.service → c'.wrReady = false → c'.inWrlist = c.inWrlist → Inv (m.set i c') log := by
            intro c' a1 a2 a3 a4 a5 a6
            exact h.clear (c' := c') hc hsg a1 a2 (by rw [a3]) (Or.inl (by rw [a3])) a4 (by rw [a5, hw]) a6
          simp only at e
          split at e
          · refine ⟨⟨log, Inv.addWr ?_ e⟩, ?_, ?_⟩
            · exact (hx { c.reinit with sendNew := true, state := .inOpen } hsg rfl rfl rfl rfl rfl).congr rfl rfl rfl rfl
                rfl rfl rfl
            · exact h16.of (LenOk.after (.same (.addWr e)) ⟨rfl, Or.inl rfl, rfl, rfl⟩)
            · exact (LenOk.after (.same (.addWr e)) ⟨rfl, Or.inl rfl, rfl, rfl⟩).maxWrite
          · rw [← Option.some.inj e]
            refine ⟨⟨log, ?_⟩, h16, rfl⟩
            exact (hx { c.reinit with sendNew := true, state := .inOpen, inOpenChan := true } hsg rfl rfl rfl rfl
              rfl).congr rfl rfl rfl rfl rfl rfl rfl
  | write i sg eom oob =>
    simp only [Mux.step] at e
    split at e
    · cases e
    · rename_i m2 r hr
      have e := Option.some.inj e
      subst e
      obtain ⟨Q, hM⟩ := h.tx
      cases hc : m.chans[i]? with
      | none => rw [Mux.write] at hr; simp only [hc] at hr; cases hr
      | some c =>
        obtain ⟨m', r', e2, hh⟩ := write_spec hM hc (by rw [h.size i c hc]; exact hm2) sg eom oob
        rw [hr] at e2
        have e2 := Option.some.inj e2
        simp only [Prod.mk.injEq] at e2
        obtain ⟨rfl, rfl⟩ := e2
        rcases hh with ⟨rfl, -⟩ | ⟨n, f, c', -, -, -, -, -, -, -, k1, k2, k3, ⟨w, b, k4⟩, k5⟩
        · exact ⟨⟨_, h⟩, h16, rfl⟩
        · have hmw : m2.maxWrite = m.maxWrite := by rw [k4]
          refine ⟨⟨log, ⟨⟨_, k5⟩, ?_, ?_⟩⟩, ?_, hmw⟩
          · intro j d hd
            rw [k3, set_get hc] at hd
            split at hd
            · rw [← Option.some.inj hd, k1]; exact h.svc i c hc
            · exact h.svc j d hd
          · intro j d hd
            rw [k3, set_get hc] at hd
            rw [hmw]
            split at hd
            · rw [← Option.some.inj hd, k2]; exact h.size i c hc
            · exact h.size j d hd
          · rw [k4]; exact h16
  | close i =>
    simp only [Mux.step, Mux.close] at e
    split at e
    · cases e
    · rename_i c hc
      split at e
      · rw [← Option.some.inj e]; exact ⟨⟨_, h⟩, h16, rfl⟩
      · split at e
        · rw [← Option.some.inj e]
          exact ⟨⟨_, h.set hc rfl rfl rfl rfl (Or.inl rfl) rfl rfl⟩, h16, rfl⟩
        · rw [← Option.some.inj e]
          exact ⟨⟨_, h.set hc rfl rfl rfl rfl (Or.inl rfl) rfl rfl⟩, h16, rfl⟩
        · have h1 := h.set (c' := { c with closeCalled := true, state := .inClose, sendClose := true }) hc rfl rfl rfl rfl
            (Or.inl rfl) rfl rfl
          have h2 := RxSame.after (.addWr e) (.set m i _)
          exact ⟨⟨_, h1.addWr e⟩, h16.of (.same h2), h2.maxWrite⟩
        · rw [← Option.some.inj e]
          exact ⟨⟨_, h.set hc rfl rfl rfl rfl (Or.inl rfl) rfl rfl⟩, h16, rfl⟩
  | readEnable i en =>
    simp only [Mux.step, Mux.readEnable] at e
    split at e
    · cases e
    · rename_i c hc
      rw [← Option.some.inj e]
      exact ⟨⟨_, h.set hc rfl rfl rfl rfl (Or.inl rfl) rfl rfl⟩, h16, rfl⟩
  | oob i en =>
    simp only [Mux.step, Mux.setOob] at e
    split at e
    · cases e
    · rename_i c hc
      rw [← Option.some.inj e]
      exact ⟨⟨_, h.set hc rfl rfl rfl rfl (Or.inl rfl) rfl rfl⟩, h16, rfl⟩
  | deferred i ans =>
    simp only [Mux.step, Mux.deferred] at e
    split at e
    · cases e
    · rename_i m2 hcr
      have h2 := h.checkRead hcr
      have hs := RxSame.checkRead hcr
      split at e
      · cases e
      · rename_i c hc
        split at e
        · split at e
          · cases e
          · rw [← Option.some.inj e]
            have h3 := h2.set (c' := { c with state := .closed }) hc rfl rfl rfl rfl (Or.inl rfl) rfl rfl
            split
            · exact ⟨⟨_, h3.congr rfl rfl rfl rfl rfl rfl rfl⟩, (h16.of (.same hs)).of ⟨rfl, Or.inl rfl, rfl, rfl⟩, hs.maxWrite⟩
            · exact ⟨⟨_, h3.congr rfl rfl rfl rfl rfl rfl rfl⟩, (h16.of (.same hs)).of ⟨rfl, Or.inl rfl, rfl, rfl⟩, hs.maxWrite⟩
        · rw [← Option.some.inj e]; exact ⟨⟨_, h2⟩, h16.of (.same hs), hs.maxWrite⟩
  | writeReady ans =>
    simp only [Mux.step] at e
    obtain ⟨Q, hM⟩ := h.tx
    obtain ⟨m2, log2, Q2, e2, s⟩ := writeReady_spec hM h.svc ans
    rw [e] at e2
    have e2 := Option.some.inj e2
    subst e2
    have hs := RxSame.steps s
    refine ⟨⟨log2, ⟨⟨Q2, MInv.steps s hM⟩, SvcOk.steps s h.svc, ?_⟩⟩, h16.of (.same hs), hs.maxWrite⟩
    rw [show m'.maxWrite = m.maxWrite from hs.maxWrite]
    exact TxSteps.size s h.size
  | recv b env =>
    simp only [Mux.step] at e
    obtain ⟨a1, a2, a3⟩ := h16.rxByte e
    exact ⟨⟨log, h.rxByte (by omega) hg h16.1 e⟩, a1, a2⟩

end Gensio.Mux
