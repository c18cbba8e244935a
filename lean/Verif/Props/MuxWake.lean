import Verif.Props.MuxLive

/-!
# A mux that has something to send waits for its child (C69)
-/

namespace Gensio.Mux

/-- A mux that is not closing and has a message to send has the write callback of its child enabled. -/
structure Wake (m : Mux) : Prop where
  en : m.state ≠ .closed → m.state ≠ .inClose → m.sending ≠ none ∨ m.wrchans ≠ [] → m.wrEn = true

theorem Wake.same {m m' : Mux} (h : Wake m) (h1 : m'.state = m.state ∨ (m.state ≠ .closed ∧ m.state ≠ .inClose) ∨ m'.state = .closed ∨ m'.state = .inClose)
    (h2 : m'.sending = m.sending ∨ m'.sending = none) (h3 : m'.wrchans = m.wrchans) (h4 : m'.wrEn = m.wrEn) : Wake m' := by
  constructor
  intro g1 g2 g3
  rw [h4]
  refine h.en ?_ ?_ ?_
  · rcases h1 with h1 | h1 | h1 | h1
    · rw [← h1]; exact g1
    · exact h1.1
    · exact absurd h1 g1
    · exact absurd h1 g2
  · rcases h1 with h1 | h1 | h1 | h1
    · rw [← h1]; exact g2
    · exact h1.2
    · exact absurd h1 g1
    · exact absurd h1 g2
  · rw [h3] at g3
    rcases h2 with h2 | h2
    · rw [h2] at g3; exact g3
    · rcases g3 with g3 | g3
      · exact absurd h2 g3
      · exact Or.inr g3

theorem Wake.congr {m m' : Mux} (h : Wake m) (h1 : m'.state = m.state) (h2 : m'.sending = m.sending)
    (h3 : m'.wrchans = m.wrchans) (h4 : m'.wrEn = m.wrEn) : Wake m' := h.same (Or.inl h1) (Or.inl h2) h3 h4

theorem Wake.set {m : Mux} (h : Wake m) (i : Nat) (c : Chan) : Wake (m.set i c) := h.congr rfl rfl rfl rfl

theorem Wake.gone {m : Mux} (h : m.state = .closed ∨ m.state = .inClose) : Wake m := ⟨fun a b _ => (h.elim a b).elim⟩

theorem Wake.on {m : Mux} (h : m.wrEn = true) : Wake m := ⟨fun _ _ _ => h⟩

theorem Wake.addWr {m m' : Mux} (h : Wake m) {i : Nat} (e : m.addWr i = some m') : Wake m' := by
  rw [Mux.addWr] at e
  split at e
  · cases e
  · split at e
    · rw [← Option.some.inj e]; exact h
    · split at e
      · cases e
      · rw [← Option.some.inj e]
        constructor
        intro g1 g2 g3
        simp only [Mux.set] at g1 ⊢
        rw [decide_eq_true g1, Bool.or_true]

theorem Wake.checkRead {m m' : Mux} (h : Wake m) {i : Nat} {ans : List Ans} (e : m.checkRead i ans = some m') : Wake m' := by
  rw [Mux.checkRead] at e
  split at e
  · cases e
  · split at e
    · cases e
    · split at e
      · exact (h.set ..).addWr e
      · rw [← Option.some.inj e]; exact h.set ..

theorem Wake.nextReq {m m' : Mux} (h : Wake m) (e : m.nextReq = some m') : Wake m' := by
  rw [Mux.nextReq] at e
  split at e
  · split at e
    · cases e
    · refine Wake.addWr (Wake.set ?_ ..) e
      exact h.congr rfl rfl rfl rfl
  · split at e
    · rw [← Option.some.inj e]; exact h
    · cases e

theorem Wake.proto (m : Mux) : Wake m.proto := Wake.gone (Or.inr rfl)

theorem Wake.onInit {m m' : Mux} (h : Wake m) (e : m.onInit = some m') : Wake m' := by
  rw [Mux.onInit] at e
  split at e
  · rw [← Option.some.inj e]; exact Wake.proto _
  · rename_i hs
    have hs : m.state = .uninit := by simpa using hs
    have ho : m.state ≠ .closed ∧ m.state ≠ .inClose := by rw [hs]; exact ⟨by decide, by decide⟩
    split at e
    · rw [← Option.some.inj e]; exact h.same (Or.inr (Or.inl ho)) (Or.inl rfl) rfl rfl
    · refine Wake.nextReq ?_ e
      exact h.same (Or.inr (Or.inl ho)) (Or.inl rfl) rfl rfl

theorem Wake.onNew {m m' : Mux} (h : Wake m) {en : Env} (e : m.onNew en = some m') : Wake m' := by
  rw [Mux.onNew] at e
  simp only at e
  split at e
  · split at e
    · cases e
    · split at e
      · cases e
      · split at e
        · rw [← Option.some.inj e]; exact Wake.proto _
        · rw [← Option.some.inj e]; exact h.congr rfl rfl rfl rfl
  · split at e
    · rw [← Option.some.inj e]; exact Wake.proto _
    · split at e
      · rw [← Option.some.inj e]; exact h.congr rfl rfl rfl rfl
      · split at e
        · rw [← Option.some.inj e]; exact Wake.proto _
        · rw [← Option.some.inj e]; exact h.congr rfl rfl rfl rfl

theorem Wake.onRsp {m m' : Mux} (h : Wake m) (e : m.onRsp = some m') : Wake m' := by
  rw [Mux.onRsp] at e
  split at e
  · rw [← Option.some.inj e]; exact Wake.proto _
  · rename_i i _
    split at e
    · cases e
    · split at e
      · rw [← Option.some.inj e]; exact Wake.proto _
      · split at e
        · rw [← Option.some.inj e]; exact Wake.proto _
        · rename_i hs
          have ho : m.state ≠ .closed ∧ m.state ≠ .inClose := by
            refine ⟨fun g => hs ?_, fun g => hs ?_⟩ <;> rw [g] <;> exact ⟨by decide, by decide⟩
          simp only at e
          split at e
          · rw [← Option.some.inj e]; exact Wake.proto _
          · split at e
            · cases e
            · split at e
              · refine Wake.nextReq ?_ e
                exact h.same (Or.inr (Or.inl ho)) (Or.inr rfl) rfl rfl
              · split at e
                · split at e
                  · cases e
                  · rename_i m2 h2
                    refine Wake.nextReq (Wake.addWr ?_ h2) e
                    exact h.same (Or.inr (Or.inl ho)) (Or.inr rfl) rfl rfl
                · refine Wake.nextReq ?_ e
                  exact h.same (Or.inr (Or.inl ho)) (Or.inr rfl) rfl rfl

theorem Wake.onClose {m m' : Mux} (h : Wake m) (e : m.onClose = some m') : Wake m' := by
  rw [Mux.onClose] at e
  split at e
  · rw [← Option.some.inj e]; exact Wake.proto _
  · split at e
    · cases e
    · split at e
      · rw [← Option.some.inj e]; exact Wake.proto _
      · simp only at e
        split at e
        · rw [← Option.some.inj e]; exact h.set ..
        · exact (h.set ..).addWr e

theorem Wake.onData {m m' : Mux} (h : Wake m) (e : m.onData = some m') : Wake m' := by
  rw [Mux.onData] at e
  split at e
  · rw [← Option.some.inj e]; exact Wake.proto _
  · split at e
    · cases e
    · split at e
      · rw [← Option.some.inj e]; exact Wake.proto _
      · simp only at e
        split at e
        · rw [← Option.some.inj e]; exact Wake.proto _
        · split at e
          · refine Wake.addWr ?_ e
            exact h.congr rfl rfl rfl rfl
          · rw [← Option.some.inj e]; exact h.congr rfl rfl rfl rfl

theorem Wake.onHdr {m m' : Mux} (h : Wake m) {en : Env} (e : m.onHdr en = some m') : Wake m' := by
  rw [Mux.onHdr] at e
  have h : Wake { m with hdrPos := 0 } := h.congr rfl rfl rfl rfl
  simp only at e
  split at e
  · exact h.onInit e
  · split at e
    · rw [← Option.some.inj e]; exact Wake.proto _
    · split at e
      · exact h.onNew e
      · split at e
        · exact h.onRsp e
        · split at e
          · exact h.onClose e
          · split at e
            · exact h.onData e
            · cases e

theorem Wake.newDone {m m' : Mux} (h : Wake m) {i : Nat} {c : Chan} {en : Env} (e : m.newDone i c en = some m') : Wake m' := by
  rw [Mux.newDone] at e
  split at e
  · rw [← Option.some.inj e]; exact Wake.on rfl
  · split at e
    · rw [← Option.some.inj e]; exact Wake.proto _
    · split at e
      · rw [← Option.some.inj e]; exact Wake.on rfl
      · split at e
        · split at e
          · cases e
          · rename_i m2 h2
            rw [← Option.some.inj e]
            exact (Wake.addWr (Wake.on rfl) h2).congr rfl rfl rfl rfl
        · rw [← Option.some.inj e]; exact Wake.on rfl

theorem Wake.dataDone {m m' : Mux} (h : Wake m) {i : Nat} {en : Env} (e : m.dataDone i en = some m') : Wake m' := by
  rw [Mux.dataDone] at e
  split at e
  · cases e
  · rename_i m2 h2
    rw [← Option.some.inj e]
    refine Wake.congr (m := m2) ?_ rfl rfl rfl rfl
    split at h2
    · exact h.checkRead h2
    · rw [← Option.some.inj h2]; exact h

theorem Wake.rxByte {m m' : Mux} (h : Wake m) {b : UInt8} {en : Env} (e : m.rxByte b en = some m') : Wake m' := by
  rw [Mux.rxByte] at e
  split at e
  · rename_i hs
    rw [← Option.some.inj e]; exact Wake.gone hs.symm
  · split at e
    · rw [Mux.rxHdr] at e
      split at e
      · simp only at e
        split at e
        · rw [← Option.some.inj e]; exact Wake.proto _
        · split at e
          · rw [← Option.some.inj e]; exact Wake.proto _
          · split at e
            · rw [← Option.some.inj e]; exact Wake.proto _
            · rw [← Option.some.inj e]; exact h.congr rfl rfl rfl rfl
      · split at e
        · rw [← Option.some.inj e]; exact h.congr rfl rfl rfl rfl
        · refine Wake.onHdr ?_ e
          exact h.congr rfl rfl rfl rfl
    · split at e
      · rw [← Option.some.inj e]; exact h.congr rfl rfl rfl rfl
      · split at e
        · rw [Mux.rxLen] at e
          simp only at e
          split at e
          · cases e
          · split at e
            · cases e
            · split at e
              · split at e
                · refine Wake.newDone ?_ e
                  exact h.congr rfl rfl rfl rfl
                · rw [← Option.some.inj e]; exact h.congr rfl rfl rfl rfl
              · split at e
                · split at e
                  · refine Wake.dataDone ?_ e
                    exact h.congr rfl rfl rfl rfl
                  · split at e
                    · rw [← Option.some.inj e]; exact Wake.proto _
                    · split at e
                      · cases e
                      · rw [← Option.some.inj e]; exact h.congr rfl rfl rfl rfl
                · cases e
        · rw [Mux.rxBody] at e
          split at e
          · cases e
          · split at e
            · cases e
            · split at e
              · split at e
                · cases e
                · simp only at e
                  split at e
                  · rw [← Option.some.inj e]; exact h.congr rfl rfl rfl rfl
                  · refine Wake.newDone ?_ e
                    exact h.set ..
              · split at e
                · split at e
                  · cases e
                  · simp only at e
                    split at e
                    · rw [← Option.some.inj e]; exact h.congr rfl rfl rfl rfl
                    · refine Wake.dataDone ?_ e
                      exact h.set ..
                · cases e

theorem Wake.endWrite (m : Mux) : Wake m.endWrite := by
  constructor
  intro _ _ h
  simp only [Mux.endWrite] at h ⊢
  cases hs : m.sending with
  | some i => simp
  | none =>
    rw [hs] at h
    cases hw : m.wrchans with
    | nil => simp [hw] at h
    | cons a l => simp

theorem Wake.flush : ∀ (ans : List (Option Nat)) (m m' : Mux), m.flush ans = some m' → Wake m'
  | [], m, m', e => by
    rw [Mux.flush] at e
    split at e
    · cases e
    · rw [← Option.some.inj e]; exact Wake.endWrite _
  | a :: ans, m, m', e => by
    rw [Mux.flush] at e
    split at e
    · cases e
    · split at e
      · split at e
        · rw [← Option.some.inj e]; exact Wake.gone (Or.inr rfl)
        · split at e
          · cases e
          · split at e
            · exact Wake.flush ans _ _ e
            · rw [← Option.some.inj e]; exact Wake.endWrite _
      · split at e
        · rw [← Option.some.inj e]; exact Wake.endWrite _
        · split at e
          · rw [← Option.some.inj e]; exact Wake.gone (Or.inr rfl)
          · split at e
            · exact Wake.flush ans _ _ e
            · rw [← Option.some.inj e]; exact Wake.endWrite _

theorem Wake.step {m m' : Mux} (h : Wake m) {op : Op} (e : m.step op = some m') : Wake m' := by
  cases op with
  | alloc id service =>
    rw [Mux.step] at e
    rw [← Option.some.inj e, Mux.alloc]
    split
    · exact h
    · exact h.congr rfl rfl rfl rfl
  | opn i =>
    rw [Mux.step, Mux.open] at e
    split at e
    · rw [Mux.openFirst] at e
      split at e
      · cases e
      · simp only at e
        split at e
        · rw [← Option.some.inj e]; exact Wake.on rfl
        · rw [← Option.some.inj e]; exact Wake.on rfl
    · rw [Mux.openChan] at e
      split at e
      · cases e
      · split at e
        · rw [← Option.some.inj e]; exact h
        · simp only at e
          split at e
          · refine Wake.addWr ?_ e
            exact h.congr rfl rfl rfl rfl
          · rw [← Option.some.inj e]; exact h.congr rfl rfl rfl rfl
  | write i sg eom oob =>
    rw [Mux.step] at e
    split at e
    · cases e
    · rename_i m2 r hw
      rw [← Option.some.inj e]
      rw [Mux.write] at hw
      have done : ∀ v, some (m, v) = some (m2, r) → Wake m2 := by
        intro v hv
        rw [← (Prod.mk.inj (Option.some.inj hv)).1]
        exact h
      split at hw
      · cases hw
      · split at hw
        · exact done _ hw
        · split at hw
          · exact done _ hw
          · split at hw
            · exact done _ hw
            · split at hw
              · exact done _ hw
              · split at hw
                · cases hw
                · rename_i m3 hq
                  rw [← (Prod.mk.inj (Option.some.inj hw)).1]
                  rw [Mux.queue] at hq
                  split at hq
                  · cases hq
                  · split at hq
                    · cases hq
                    · exact (h.set ..).addWr hq
  | close i =>
    rw [Mux.step, Mux.close] at e
    split at e
    · cases e
    · split at e
      · rw [← Option.some.inj e]; exact h
      · split at e
        · rw [← Option.some.inj e]; exact h.set ..
        · rw [← Option.some.inj e]; exact h.set ..
        · exact (h.set ..).addWr e
        · rw [← Option.some.inj e]; exact h.set ..
  | readEnable i en =>
    rw [Mux.step, Mux.readEnable] at e
    split at e
    · cases e
    · rw [← Option.some.inj e]; exact h.set ..
  | oob i en =>
    rw [Mux.step, Mux.setOob] at e
    split at e
    · cases e
    · rw [← Option.some.inj e]; exact h.set ..
  | deferred i ans =>
    rw [Mux.step, Mux.deferred] at e
    split at e
    · cases e
    · rename_i m2 h2
      have h3 := h.checkRead h2
      split at e
      · cases e
      · split at e
        · split at e
          · cases e
          · rw [← Option.some.inj e]
            simp only
            split
            · exact Wake.gone (Or.inr rfl)
            · exact h3.congr rfl rfl rfl rfl
        · rw [← Option.some.inj e]; exact h3
  | writeReady ans =>
    rw [Mux.step, Mux.writeReady] at e
    split at e
    · rename_i hs
      rw [← Option.some.inj e]; exact Wake.gone hs.symm
    · exact Wake.flush ans m m' e
  | recv b en => exact h.rxByte e

/-- C69, partly: in every history of a mux, as long as the mux is not closing and a message of a channel waits or is partly
sent, the write callback of the child is enabled, so that sending goes on.

Missing: the messages that do not belong to a channel (`C69_xmit_violated`). -/
theorem C69_wake_partial {isClient : Bool} {maxRead maxWrite : Nat} (ops : List Op) {m : Mux}
    (e : (Mux.start isClient maxRead maxWrite).run ops = some m) (h1 : m.state ≠ .closed) (h2 : m.state ≠ .inClose)
    (h3 : m.sending ≠ none ∨ m.wrchans ≠ []) : m.wrEn = true := by
  have key : ∀ (ops : List Op) (a : Mux), Wake a → a.run ops = some m → Wake m := by
    intro ops
    induction ops with
    | nil => intro a ha ea; rw [← Option.some.inj ea]; exact ha
    | cons op ops ih =>
      intro a ha ea
      rw [Mux.run] at ea
      split at ea
      · cases ea
      · rename_i a2 e2
        exact ih a2 (ha.step e2) ea
  exact (key ops _ (Wake.gone (Or.inl rfl)) e).en h1 h2 h3

/-- A message waits and another one is partly sent. -/
example : ((Mux.start false 140 40).run ([.alloc 0 [], .opn 0, .writeReady [some 99]] ++
    ([0x11, 0, 1, 0, 0x22, 0, 0, 7, 0, 0, 0, 200, 0, 0] : List UInt8).map (fun b => Op.recv b {})
    ++ [.writeReady [some 99], .write 0 [[1, 2]] true false, .write 0 [[3]] true false, .writeReady [some 4]])).map
      (fun m => (m.state, m.sending, m.wrEn)) = some (.opened, some 0, true) := by
  decide +kernel

/-- C69 fails: when the child takes only a part of the `MUX_INIT` message and no channel waits to be sent, the write
callback is disabled with half of the message unsent, :2132-2140 and :2189-2193.  The mux then hangs: nothing enables it
again until the other end, which waits for this message, sends something. -/
theorem C69_xmit_violated : ∃ (ops : List Op) (m : Mux), (Mux.start true 132 32).run ops = some m ∧ m.state = .uninit
    ∧ m.out = [0x11, 0] ∧ m.xmit.drop m.xmitPos = [1, 0] ∧ m.wrEn = false := by
  have h : ((Mux.start true 132 32).run [.alloc 0 [], .opn 0, .writeReady [some 2]]).any (fun m =>
      decide (m.state = .uninit ∧ m.out = [0x11, 0] ∧ m.xmit.drop m.xmitPos = [1, 0] ∧ m.wrEn = false)) = true := by
    decide +kernel
  rw [Option.any_eq_true] at h
  obtain ⟨m, e, h⟩ := h
  exact ⟨_, m, e, of_decide_eq_true h⟩

end Gensio.Mux
