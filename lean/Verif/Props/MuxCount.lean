import Verif.Props.MuxIso

/-!
# The mux closes its child with its last channel (C72)
-/

namespace Gensio.Mux

/-! ## What leaves the states of the channels alone -/

def keyOf (c : Chan) : CSt × Bool := (c.state, c.linked)

structure Keep (m m' : Mux) : Prop where
  key : m'.chans.map keyOf = m.chans.map keyOf
  nr : m'.nrNotClosed = m.nrNotClosed
  inHdr : m'.inHdr = m.inHdr
  msgid : m'.msgid = m.msgid
  curr : m'.curr = m.curr

theorem Keep.refl (m : Mux) : Keep m m := ⟨rfl, rfl, rfl, rfl, rfl⟩

theorem Keep.trans {a b c : Mux} (h1 : Keep a b) (h2 : Keep b c) : Keep a c :=
  ⟨h2.key.trans h1.key, h2.nr.trans h1.nr, h2.inHdr.trans h1.inHdr, h2.msgid.trans h1.msgid, h2.curr.trans h1.curr⟩

theorem map_set_key {l : List Chan} {i : Nat} {c c' : Chan} (hc : l[i]? = some c) (h : keyOf c' = keyOf c) :
    (l.set i c').map keyOf = l.map keyOf := by
  rw [List.map_set]
  apply List.ext_getElem?
  intro j
  rw [List.getElem?_set]
  split
  · rename_i hj
    subst hj
    have := (List.getElem?_eq_some_iff.mp hc).1
    rw [List.getElem?_map, hc, List.length_map, if_pos this, h]
    rfl
  · rfl

theorem Keep.set {m : Mux} {i : Nat} {c c' : Chan} (hc : m.chans[i]? = some c) (h : keyOf c' = keyOf c) :
    Keep m (m.set i c') := ⟨map_set_key hc h, rfl, rfl, rfl, rfl⟩

theorem Keep.addWr {m m' : Mux} {i : Nat} (e : m.addWr i = some m') : Keep m m' := by
  rw [Mux.addWr] at e
  split at e
  · cases e
  · rename_i c hc
    split at e
    · rw [← Option.some.inj e]; exact .refl m
    · split at e
      · cases e
      · rw [← Option.some.inj e]
        exact ⟨map_set_key hc rfl, rfl, rfl, rfl, rfl⟩

theorem Keep.nextReq {m m' : Mux} (e : m.nextReq = some m') : Keep m m' := by
  rw [Mux.nextReq] at e
  split at e
  · split at e
    · cases e
    · rename_i c hc
      refine Keep.trans ?_ (Keep.addWr e)
      exact ⟨map_set_key hc rfl, rfl, rfl, rfl, rfl⟩
  · split at e
    · rw [← Option.some.inj e]; exact .refl m
    · cases e

theorem Keep.checkRead {m m' : Mux} {i : Nat} {ans : List Ans} (e : m.checkRead i ans = some m') : Keep m m' := by
  rw [Mux.checkRead] at e
  split at e
  · cases e
  · rename_i c hc
    split at e
    · cases e
    · rename_i c' hr
      have hk : keyOf c' = keyOf c := by
        have := readLoop_rd _ _ _ _ hr
        unfold RdOnly at this
        rw [this]; rfl
      split at e
      · exact (Keep.set hc hk).trans (Keep.addWr e)
      · rw [← Option.some.inj e]; exact Keep.set hc hk

theorem setupNew_key {c c' : Chan} (h : c.setupNew = some c') : keyOf c' = keyOf c := by
  rw [Chan.setupNew] at h
  split at h
  · cases h
  · rw [← Option.some.inj h]; rfl

theorem setupClose_key {c c' : Chan} (h : c.setupClose = some c') : keyOf c' = keyOf c := by
  rw [Chan.setupClose] at h
  split at h
  · cases h
  · rw [← Option.some.inj h]; rfl

theorem setupAck_key (c : Chan) (hdr : List UInt8) : keyOf (c.setupAck hdr).1 = keyOf c := by
  rw [Chan.setupAck]
  split <;> rfl

theorem setupData_key {c c' : Chan} {b : Bool} (h : c.setupData = some (c', b)) : keyOf c' = keyOf c := by
  rw [Chan.setupData] at h
  simp only at h
  split at h
  · cases h
  · split at h
    · have := setupAck_key c ([0x52, 0] ++ be16 c.remoteId ++ be32 c.recvUnacked)
      rw [Option.some.inj h] at this
      exact this
    · split at h
      · cases h
      · split at h
        · cases h
        · split at h
          · have := setupAck_key { c with curLen := 0 } ([0x52, 0] ++ be16 c.remoteId ++ be32 c.recvUnacked)
            rw [Option.some.inj h] at this
            exact this
          · rw [← (Prod.mk.inj (Option.some.inj h)).1]; rfl

theorem Keep.pickOne {m m' : Mux} {i : Nat} {c : Chan} {b : Bool} (hc : m.chans[i]? = some c)
    (h : m.pickOne i c = some (m', b)) : Keep m m' := by
  rw [Mux.pickOne] at h
  split at h
  · split at h
    · cases h
    · rename_i c' h1
      rw [← (Prod.mk.inj (Option.some.inj h)).1]
      have h2 := setupNew_key h1
      exact ⟨map_set_key hc h2, rfl, rfl, rfl, rfl⟩
  · split at h
    · split at h
      · cases h
      · rename_i h1
        rw [← (Prod.mk.inj (Option.some.inj h)).1]
        have h2 := setupData_key h1
        exact ⟨map_set_key hc h2, rfl, rfl, rfl, rfl⟩
      · rename_i h1
        rw [← (Prod.mk.inj (Option.some.inj h)).1]
        have h2 := setupData_key h1
        exact ⟨map_set_key hc h2, rfl, rfl, rfl, rfl⟩
    · split at h
      · split at h
        · cases h
        · rename_i c' h1
          split at h
          · cases h
          · rename_i m2 e
            split at h
            · cases h
            · rename_i d hd
              rw [← (Prod.mk.inj (Option.some.inj h)).1]
              refine ((Keep.set hc (setupClose_key h1)).trans (Keep.addWr e)).trans ?_
              exact ⟨map_set_key hd rfl, rfl, rfl, rfl, rfl⟩
      · rw [← (Prod.mk.inj (Option.some.inj h)).1]
        exact Keep.set hc rfl

theorem Keep.pick : ∀ (l : List Nat) (m m' : Mux), m.pick l = some m' → Keep m m'
  | [], m, m', h => by
    rw [Mux.pick] at h
    rw [← Option.some.inj h]
    exact ⟨rfl, rfl, rfl, rfl, rfl⟩
  | i :: l, m, m', h => by
    rw [Mux.pick] at h
    split at h
    · cases h
    · rename_i c hc
      have hk : Keep m ({ m.set i { c with inWrlist := false } with wrchans := l } : Mux) :=
        ⟨map_set_key hc rfl, rfl, rfl, rfl, rfl⟩
      have hg : ({ m.set i { c with inWrlist := false } with wrchans := l } : Mux).chans[i]?
          = some { c with inWrlist := false } := by
        simp only [Mux.set]; rw [set_get hc, if_pos rfl]
      split at h
      · cases h
      · rename_i e
        rw [← Option.some.inj h]
        exact hk.trans (Keep.pickOne hg e)
      · rename_i e
        exact (hk.trans (Keep.pickOne hg e)).trans (Keep.pick l _ _ h)

theorem Keep.sendPart {m m' : Mux} {i n : Nat} (h : m.sendPart i n = some m') : Keep m m' := by
  rw [Mux.sendPart] at h
  split at h
  · cases h
  · rename_i c hc
    split at h
    · cases h
    · simp only at h
      split at h
      · rw [← Option.some.inj h, Mux.sentAll]
        simp only
        generalize (if c.curLen ≤ c.wr.len then _ else _ : Nat) = n
        split
        · exact ⟨map_set_key hc rfl, rfl, rfl, rfl, rfl⟩
        · exact ⟨map_set_key hc rfl, rfl, rfl, rfl, rfl⟩
      · rw [← Option.some.inj h]
        exact ⟨map_set_key hc rfl, rfl, rfl, rfl, rfl⟩

theorem Keep.sendXmit (m : Mux) (n : Nat) : Keep m (m.sendXmit n) := by
  rw [Mux.sendXmit]
  split
  · exact ⟨rfl, rfl, rfl, rfl, rfl⟩
  · exact ⟨rfl, rfl, rfl, rfl, rfl⟩

theorem Keep.flush : ∀ (ans : List (Option Nat)) (m m' : Mux), m.flush ans = some m' →
    Keep m m' ∧ (m'.state = m.state ∨ m'.state = .inClose)
  | [], m, m', h => by
    rw [Mux.flush] at h
    split at h
    · cases h
    · rename_i m1 e
      rw [← Option.some.inj h]
      split at e
      · exact ⟨(Keep.pick _ _ _ e).trans ⟨rfl, rfl, rfl, rfl, rfl⟩, Or.inl (by have := pick_state _ _ _ e; exact this)⟩
      · rw [← Option.some.inj e]; exact ⟨⟨rfl, rfl, rfl, rfl, rfl⟩, Or.inl rfl⟩
  | a :: ans, m, m', h => by
    rw [Mux.flush] at h
    split at h
    · cases h
    · rename_i m1 e
      have e1 : Keep m m1 ∧ m1.state = m.state := by
        split at e
        · exact ⟨Keep.pick _ _ _ e, pick_state _ _ _ e⟩
        · rw [← Option.some.inj e]; exact ⟨.refl _, rfl⟩
      obtain ⟨e1, f1⟩ := e1
      split at h
      · split at h
        · rw [← Option.some.inj h]
          exact ⟨e1.trans ⟨rfl, rfl, rfl, rfl, rfl⟩, Or.inr rfl⟩
        · split at h
          · cases h
          · rename_i m2 e2
            split at h
            · obtain ⟨g1, g2⟩ := Keep.flush ans _ _ h
              refine ⟨(e1.trans (Keep.sendPart e2)).trans g1, ?_⟩
              rcases g2 with g2 | g2
              · exact Or.inl (by rw [g2, sendPart_state e2, f1])
              · exact Or.inr g2
            · rw [← Option.some.inj h]
              refine ⟨(e1.trans (Keep.sendPart e2)).trans ⟨rfl, rfl, rfl, rfl, rfl⟩, Or.inl ?_⟩
              exact (sendPart_state e2).trans f1
      · split at h
        · rw [← Option.some.inj h]
          exact ⟨e1.trans ⟨rfl, rfl, rfl, rfl, rfl⟩, Or.inl f1⟩
        · split at h
          · rw [← Option.some.inj h]
            exact ⟨e1.trans ⟨rfl, rfl, rfl, rfl, rfl⟩, Or.inr rfl⟩
          · have e3 : ∀ n, (m1.sendXmit n).state = m1.state := by
              intro n; rw [Mux.sendXmit]; split <;> rfl
            split at h
            · obtain ⟨g1, g2⟩ := Keep.flush ans _ _ h
              refine ⟨(e1.trans (Keep.sendXmit _ _)).trans g1, ?_⟩
              rcases g2 with g2 | g2
              · exact Or.inl (by rw [g2, e3, f1])
              · exact Or.inr g2
            · rw [← Option.some.inj h]
              refine ⟨(e1.trans (Keep.sendXmit _ _)).trans ⟨rfl, rfl, rfl, rfl, rfl⟩, Or.inl ?_⟩
              exact (e3 _).trans f1

/-! ## Counting the channels that are not closed -/

def isUp (k : CSt × Bool) : Bool := decide (k.1 ≠ .closed)

/-- The number of channels that are not closed. -/
def up (m : Mux) : Nat := (m.chans.map keyOf).countP isUp

/-- The state and the flag of the first linked channel. -/
def firstKey (l : List (CSt × Bool)) : Option CSt := (l.find? (fun k => k.2)).map (·.1)

/-- The first channel is still being opened by the other end. -/
def Waits (m : Mux) : Prop :=
  ∃ s, firstKey (m.chans.map keyOf) = some s ∧ (s = .inOpen ∨ s = .inOpenClose ∨ s = .pendingOpen ∧ m.inHdr = false ∧ m.msgid = 2)

/-- A new channel whose service string is being received. -/
def Body (m : Mux) : Prop :=
  m.inHdr = false → m.msgid = 2 → ∀ i, m.curr = some i → ∃ l, (m.chans.map keyOf)[i]? = some (.pendingOpen, l)

structure Cnt (m : Mux) : Prop where
  shut : m.state = .closed → up m = 0
  num : m.state ≠ .closed → m.state ≠ .inClose → m.nrNotClosed = up m ∧ 0 < up m
  first : m.state = .uninit ∨ m.state = .waitOpen → Waits m
  body : m.state ≠ .closed → m.state ≠ .inClose → Body m
  ini : m.state = .uninit → m.inHdr = true

theorem Keep.up {m m' : Mux} (h : Keep m m') : Mux.up m' = Mux.up m := by rw [Mux.up, Mux.up, h.key]

theorem Cnt.keep {m m' : Mux} (h : Cnt m) (hk : Keep m m') (hs : m'.state = m.state) : Cnt m' := by
  refine ⟨?_, ?_, ?_, ?_, fun g => by rw [hk.inHdr]; exact h.ini (hs ▸ g)⟩
  · intro g; rw [hk.up]; exact h.shut (hs ▸ g)
  · intro g1 g2; rw [hk.up, hk.nr]; exact h.num (hs ▸ g1) (hs ▸ g2)
  · intro g
    rw [hs] at g
    obtain ⟨s, e1, e2⟩ := h.first g
    exact ⟨s, by rw [hk.key]; exact e1, by rw [hk.inHdr, hk.msgid]; exact e2⟩
  · intro g1 g2
    have := h.body (hs ▸ g1) (hs ▸ g2)
    unfold Body at *
    rw [hk.inHdr, hk.msgid, hk.curr, hk.key]
    exact this

theorem Cnt.dead {m : Mux} (h : m.state = .inClose) : Cnt m := by
  refine ⟨fun g => ?_, fun _ g => absurd h g, fun g => ?_, fun _ g => absurd h g, fun g => by rw [h] at g; cases g⟩
  · rw [h] at g; cases g
  · rw [h] at g; rcases g with g | g <;> cases g

theorem up_set {m m' : Mux} {i : Nat} {c c' : Chan} (hc : m.chans[i]? = some c) (e : m'.chans = m.chans.set i c') :
    up m' + (if c.state = .closed then 0 else 1) = up m + (if c'.state = .closed then 0 else 1) := by
  have hi := (List.getElem?_eq_some_iff.mp hc).1
  have hg : m.chans[i] = c := (List.getElem?_eq_some_iff.mp hc).2
  rw [up, e, List.map_set, List.countP_set (by simpa using hi)]
  have h1 : (m.chans.map keyOf)[i]'(by simpa using hi) = keyOf c := by rw [List.getElem_map, hg]
  rw [h1]
  have hle : (if isUp (keyOf c) = true then 1 else 0) ≤ up m := by
    split
    · rename_i hu
      have : 0 < up m := List.countP_pos_iff.mpr ⟨keyOf c, by
        rw [← h1]; exact List.getElem_mem _, hu⟩
      omega
    · exact Nat.zero_le _
  have hu : ∀ d : Chan, (if isUp (keyOf d) = true then 1 else 0) = (if d.state = .closed then 0 else 1) := by
    intro d
    by_cases hd : d.state = .closed <;> simp [isUp, keyOf, hd]
  rw [hu] at hle ⊢
  rw [hu]
  change up m - _ + _ + _ = _
  omega

theorem firstKey_set {l : List (CSt × Bool)} {i : Nat} {s s' t : CSt} {b : Bool} (h : l[i]? = some (s, b))
    (hf : firstKey l = some t) :
    firstKey (l.set i (s', b)) = some t ∨ (t = s ∧ firstKey (l.set i (s', b)) = some s') := by
  induction l generalizing i with
  | nil => cases h
  | cons k l ih =>
    cases i with
    | zero =>
      simp only [List.getElem?_cons_zero, Option.some.injEq] at h
      subst h
      simp only [firstKey, List.find?_cons, List.set_cons_zero] at hf ⊢
      cases b with
      | true =>
        simp only [Option.map_some, Option.some.injEq] at hf ⊢
        exact Or.inr ⟨hf.symm, by simp⟩
      | false => exact Or.inl hf
    | succ i =>
      simp only [List.getElem?_cons_succ] at h
      simp only [firstKey, List.find?_cons, List.set_cons_succ] at hf ⊢
      cases hk : k.2 with
      | true => rw [hk] at hf; exact Or.inl hf
      | false => rw [hk] at hf; exact ih h hf

theorem key_get {m : Mux} {i : Nat} {c : Chan} (hc : m.chans[i]? = some c) :
    (m.chans.map keyOf)[i]? = some (c.state, c.linked) := by rw [List.getElem?_map, hc]; rfl

theorem Waits.set {m m' : Mux} (h : Waits m) {i : Nat} {c c' : Chan} (hc : m.chans[i]? = some c)
    (e : m'.chans = m.chans.set i c') (hl : c'.linked = c.linked) (h5 : m'.inHdr = m.inHdr) (h6 : m'.msgid = m.msgid)
    (h8 : m.inHdr = false → c.state = .pendingOpen → c'.state = .pendingOpen)
    (h9 : c.state = .inOpen ∨ c.state = .inOpenClose → c'.state = .inOpen ∨ c'.state = .inOpenClose) : Waits m' := by
  have hk : m'.chans.map keyOf = (m.chans.map keyOf).set i (c'.state, c.linked) := by
    rw [e, List.map_set, ← hl]; rfl
  obtain ⟨s, e1, e2⟩ := h
  rw [← h5, ← h6] at e2
  rcases firstKey_set (s' := c'.state) (key_get hc) e1 with e3 | ⟨e3, e4⟩
  · exact ⟨s, by rw [hk]; exact e3, e2⟩
  · refine ⟨c'.state, by rw [hk]; exact e4, ?_⟩
    rw [e3] at e2
    rcases e2 with e2 | e2 | ⟨e2, e5⟩
    · rcases h9 (Or.inl e2) with g | g
      · exact Or.inl g
      · exact Or.inr (Or.inl g)
    · rcases h9 (Or.inr e2) with g | g
      · exact Or.inl g
      · exact Or.inr (Or.inl g)
    · exact Or.inr (Or.inr ⟨h8 (by rw [← h5]; exact e5.1) e2, e5⟩)

theorem Body.set {m m' : Mux} (h : Body m) {i : Nat} {c c' : Chan} (hc : m.chans[i]? = some c)
    (e : m'.chans = m.chans.set i c') (hl : c'.linked = c.linked) (h5 : m'.inHdr = m.inHdr) (h6 : m'.msgid = m.msgid)
    (h7 : m'.curr = m.curr) (h8 : m.inHdr = false → c.state = .pendingOpen → c'.state = .pendingOpen) : Body m' := by
  have hk : m'.chans.map keyOf = (m.chans.map keyOf).set i (c'.state, c.linked) := by
    rw [e, List.map_set, ← hl]; rfl
  intro g3 g4 k g5
  rw [h5] at g3
  rw [h6] at g4
  rw [h7] at g5
  obtain ⟨l, e1⟩ := h g3 g4 k g5
  rw [hk, List.getElem?_set]
  split
  · rename_i hki
    subst hki
    rw [key_get hc] at e1
    have e1 := Option.some.inj e1
    have hs : c.state = .pendingOpen := (Prod.mk.inj e1).1
    have hi := (List.getElem?_eq_some_iff.mp hc).1
    rw [if_pos (by simpa using hi), h8 g3 hs]
    exact ⟨_, rfl⟩
  · exact ⟨l, e1⟩

/-- One channel that is not closed gets another state. -/
theorem Cnt.move {m m' : Mux} (h : Cnt m) {i : Nat} {c c' : Chan} (hc : m.chans[i]? = some c)
    (e : m'.chans = m.chans.set i c') (hl : c'.linked = c.linked) (h1 : c.state ≠ .closed) (h2 : c'.state ≠ .closed)
    (h3 : m'.state = m.state) (h4 : m'.nrNotClosed = m.nrNotClosed) (h5 : m'.inHdr = m.inHdr) (h6 : m'.msgid = m.msgid)
    (h7 : m'.curr = m.curr) (h8 : m.inHdr = false → c.state = .pendingOpen → c'.state = .pendingOpen)
    (h9 : c.state = .inOpen ∨ c.state = .inOpenClose → c'.state = .inOpen ∨ c'.state = .inOpenClose) : Cnt m' := by
  have hu := up_set hc e
  rw [if_neg h1, if_neg h2] at hu
  have hu : up m' = up m := by omega
  refine ⟨?_, ?_, ?_, ?_, fun g => by rw [h5]; exact h.ini (h3 ▸ g)⟩
  · intro g; rw [hu]; exact h.shut (h3 ▸ g)
  · intro g1 g2; rw [hu, h4]; exact h.num (h3 ▸ g1) (h3 ▸ g2)
  · intro g
    exact (h.first (h3 ▸ g)).set hc e hl h5 h6 h8 h9
  · intro g1 g2
    exact (h.body (h3 ▸ g1) (h3 ▸ g2)).set hc e hl h5 h6 h7 h8

theorem Cnt.alloc {m : Mux} (h : Cnt m) (id : Nat) (sv : List UInt8) : Cnt (m.alloc id sv) := by
  rw [Mux.alloc]
  split
  · exact h
  · have hu : up { m with chans := m.chans ++ [{ m.newChan id with service := sv }] } = up m := by
      simp [up, isUp, keyOf, Mux.newChan]
    refine ⟨?_, ?_, ?_, ?_, fun g => h.ini g⟩
    · intro g; rw [hu]; exact h.shut g
    · intro g1 g2; rw [hu]; exact h.num g1 g2
    · intro g
      obtain ⟨s, e1, e2⟩ := h.first g
      refine ⟨s, ?_, e2⟩
      simp only [firstKey, List.map_append, List.find?_append] at e1 ⊢
      cases hf : List.find? (fun k : CSt × Bool => k.2) (m.chans.map keyOf) with
      | none => rw [hf] at e1; cases e1
      | some k => rw [hf] at e1; exact e1
    · intro g1 g2 g3 g4 k g5
      obtain ⟨l, e1⟩ := h.body g1 g2 g3 g4 k g5
      refine ⟨l, ?_⟩
      simp only [List.map_append]
      rw [List.getElem?_append_left (List.getElem?_eq_some_iff.mp e1).1]
      exact e1

theorem Cnt.close {m m' : Mux} (h : Cnt m) {i : Nat} (e : m.close i = some m') : Cnt m' := by
  rw [Mux.close] at e
  split at e
  · cases e
  · rename_i c hc
    split at e
    · rw [← Option.some.inj e]; exact h
    · split at e
      · rename_i hs
        rw [← Option.some.inj e]
        exact h.move hc rfl rfl (by rw [hs]; decide) (by simp) rfl rfl rfl rfl rfl (by rw [hs]; intro _ g; cases g)
          (fun _ => Or.inr rfl)
      · rename_i hs
        rw [← Option.some.inj e]
        exact h.move hc rfl rfl (by rw [hs]; decide) (by simp) rfl rfl rfl rfl rfl (by rw [hs]; intro _ g; cases g)
          (by rw [hs]; intro g; rcases g with g | g <;> cases g)
      · rename_i hs
        have h2 : Cnt (m.set i { c with closeCalled := true, state := .inClose, sendClose := true }) :=
          h.move hc rfl rfl (by rw [hs]; decide) (by simp) rfl rfl rfl rfl rfl (by rw [hs]; intro _ g; cases g)
            (by rw [hs]; intro g; rcases g with g | g <;> cases g)
        exact h2.keep (Keep.addWr e) (addWr_state e)
      · rw [← Option.some.inj e]
        exact h.keep (Keep.set hc rfl) rfl

theorem Cnt.openChan {m m' : Mux} (h : Cnt m) (hm : m.state ≠ .closed) {i : Nat} (e : m.openChan i = some m') : Cnt m' := by
  rw [Mux.openChan] at e
  split at e
  · cases e
  · rename_i c hc
    split at e
    · rw [← Option.some.inj e]; exact h
    · rename_i hs
      have hs : c.state = .closed := Classical.byContradiction hs
      have key : ∀ (c' : Chan) (m1 : Mux), m1.chans = m.chans.set i c' → c'.linked = c.linked → c'.state ≠ .closed →
          m1.state = m.state → m1.nrNotClosed = m.nrNotClosed + 1 → m1.inHdr = m.inHdr → m1.msgid = m.msgid →
          m1.curr = m.curr → Cnt m1 := by
        intro c' m1 f1 f2 f3 f4 f5 f6 f7 f8
        have hu := up_set hc f1
        rw [if_pos hs, if_neg f3] at hu
        refine ⟨?_, ?_, ?_, ?_, fun g => by rw [f6]; exact h.ini (f4 ▸ g)⟩
        · intro g; exact absurd (f4 ▸ g) hm
        · intro g1 g2
          have := h.num (f4 ▸ g1) (f4 ▸ g2)
          omega
        · intro g
          exact (h.first (f4 ▸ g)).set hc f1 f2 f6 f7 (by rw [hs]; intro _ g; cases g)
            (by rw [hs]; intro g; rcases g with g | g <;> cases g)
        · intro g1 g2
          exact (h.body (f4 ▸ g1) (f4 ▸ g2)).set hc f1 f2 f6 f7 f8 (by rw [hs]; intro _ g; cases g)
      simp only at e
      split at e
      · refine Cnt.keep ?_ (Keep.addWr e) (addWr_state e)
        exact key _ _ rfl rfl (by simp) rfl rfl rfl rfl rfl
      · rw [← Option.some.inj e]
        exact key _ _ rfl rfl (by simp) rfl rfl rfl rfl rfl

theorem firstKey_at {m : Mux} {i : Nat} {c : Chan} (h : m.chan0 = some i) (hc : m.chans[i]? = some c) :
    firstKey (m.chans.map keyOf) = some c.state ∧ c.linked = true := by
  rw [Mux.chan0] at h
  obtain ⟨hi, h1, h2⟩ := List.findIdx?_eq_some_iff_getElem.mp h
  have hg := (List.getElem?_eq_some_iff.mp hc).2
  rw [hg] at h1
  refine ⟨?_, h1⟩
  have : (m.chans.map keyOf).find? (fun k => k.2) = some (keyOf c) := by
    rw [List.find?_eq_some_iff_getElem]
    refine ⟨h1, i, by simpa using hi, by rw [List.getElem_map, hg], fun j hj => ?_⟩
    have := h2 j hj
    simp only [List.getElem_map, keyOf]
    simpa using this
  rw [firstKey, this]; rfl

theorem Cnt.openFirst {m m' : Mux} (h : Cnt m) (hm : m.state = .closed) {i : Nat} (h0 : m.chan0 = some i)
    (e : m.openFirst i = some m') : Cnt m' := by
  rw [Mux.openFirst] at e
  split at e
  · cases e
  · rename_i c hc
    have hz := h.shut hm
    have hcl : c.state = .closed := by
      rw [up, List.countP_eq_zero] at hz
      have := hz (keyOf c) (List.mem_map_of_mem (List.mem_of_getElem? hc))
      exact Classical.byContradiction fun g => this (by simp [isUp, keyOf, g])
    have hfk := firstKey_at h0 hc
    have key : ∀ (c' : Chan) (m1 : Mux), m1.chans = m.chans.set i c' → c'.linked = c.linked → c'.state = .inOpen →
        m1.state = .uninit → m1.nrNotClosed = 1 → m1.inHdr = true → Cnt m1 := by
      intro c' m1 f1 f2 f3 f4 f5 f6
      have hu := up_set hc f1
      rw [if_pos hcl, f3, if_neg (by decide)] at hu
      have hk : m1.chans.map keyOf = (m.chans.map keyOf).set i (c'.state, c.linked) := by
        rw [f1, List.map_set, ← f2]; rfl
      refine ⟨?_, ?_, ?_, ?_, fun _ => f6⟩
      · intro g; rw [f4] at g; cases g
      · intro _ _; omega
      · intro _
        refine ⟨.inOpen, ?_, Or.inl rfl⟩
        have e0 : m1.chan0 = some i := by
          rw [Mux.chan0, f1]
          rw [Mux.chan0] at h0
          obtain ⟨hi, h1, h2⟩ := List.findIdx?_eq_some_iff_getElem.mp h0
          refine List.findIdx?_eq_some_iff_getElem.mpr ⟨by simpa using hi, ?_, fun j hj => ?_⟩
          · rw [List.getElem_set_self, f2]; exact hfk.2
          · rw [List.getElem_set_ne (by omega)]; exact h2 j hj
        have hc1 : m1.chans[i]? = some c' := by
          rw [f1, List.getElem?_set_self (List.getElem?_eq_some_iff.mp hc).1]
        rw [← f3]; exact (firstKey_at e0 hc1).1
      · intro _ _ g; rw [f6] at g; cases g
    simp only at e
    split at e
    · rw [← Option.some.inj e]
      exact key _ _ rfl rfl rfl rfl rfl rfl
    · rw [← Option.some.inj e]
      exact key _ _ rfl rfl rfl rfl rfl rfl

theorem checkRead_state {m m' : Mux} {i : Nat} {ans : List Ans} (e : m.checkRead i ans = some m') : m'.state = m.state := by
  rw [Mux.checkRead] at e
  split at e
  · cases e
  · split at e
    · cases e
    · split at e
      · exact (addWr_state e).trans rfl
      · rw [← Option.some.inj e]; rfl

theorem Cnt.deferred {m m' : Mux} (h : Cnt m) {i : Nat} {ans : List Ans} (e : m.deferred i ans = some m') : Cnt m' := by
  rw [Mux.deferred] at e
  split at e
  · cases e
  · rename_i m1 e1
    have h1 : Cnt m1 := h.keep (Keep.checkRead e1) (checkRead_state e1)
    clear h e1
    split at e
    · cases e
    · rename_i c hc
      split at e
      · rename_i hs
        have hs := hs.2
        split at e
        · cases e
        · simp only at e
          split at e
          · rw [← Option.some.inj e]; exact Cnt.dead rfl
          · rename_i hz
            rw [← Option.some.inj e]
            have key : ∀ (c' : Chan) (m2 : Mux), m2.chans = m1.chans.set i c' → c'.linked = c.linked → c'.state = .closed →
                m2.state = m1.state → m2.nrNotClosed = m1.nrNotClosed - 1 → m2.nrNotClosed ≠ 0 → m2.inHdr = m1.inHdr →
                m2.msgid = m1.msgid → m2.curr = m1.curr → Cnt m2 := by
              intro c' m2 f1 f2 f3 f4 f5 f9 f6 f7 f8
              have hu := up_set hc f1
              rw [if_neg (by rw [hs]; decide), if_pos f3] at hu
              refine ⟨?_, ?_, ?_, ?_, fun g => by rw [f6]; exact h1.ini (f4 ▸ g)⟩
              · intro g
                have := h1.shut (f4 ▸ g)
                omega
              · intro g1 g2
                have h3 := h1.num (f4 ▸ g1) (f4 ▸ g2)
                omega
              · intro g
                exact (h1.first (f4 ▸ g)).set hc f1 f2 f6 f7 (by rw [hs]; intro _ g; cases g)
                  (by rw [hs]; intro g; rcases g with g | g <;> cases g)
              · intro g1 g2
                exact (h1.body (f4 ▸ g1) (f4 ▸ g2)).set hc f1 f2 f6 f7 f8 (by rw [hs]; intro _ g; cases g)
            exact key _ _ rfl rfl rfl rfl rfl hz rfl rfl rfl
      · rw [← Option.some.inj e]; exact h1

/-! ## Received bytes -/

/-- A new channel is refused in this step: by the other end, or by the user of this end. -/
def refused (m m' : Mux) : Bool :=
  (m.chans.zip m'.chans).any fun p =>
    decide ((p.1.state = .inOpen ∨ p.1.state = .inOpenClose ∨ p.1.state = .pendingOpen) ∧ p.2.state = .closed)

theorem refused_of {m m' : Mux} {i : Nat} {c c' : Chan} (hc : m.chans[i]? = some c) (hc' : m'.chans[i]? = some c')
    (h1 : c.state = .inOpen ∨ c.state = .inOpenClose ∨ c.state = .pendingOpen) (h2 : c'.state = .closed) :
    refused m m' = true := by
  rw [refused, List.any_eq_true]
  refine ⟨(c, c'), ?_, by simp only [decide_eq_true_eq]; exact ⟨h1, h2⟩⟩
  exact List.mem_of_getElem? (List.getElem?_zip_eq_some.mpr ⟨hc, hc'⟩)

theorem Keep.get {m m' : Mux} (h : Keep m m') {i : Nat} {c : Chan} (hc : m.chans[i]? = some c) :
    ∃ c', m'.chans[i]? = some c' ∧ c'.state = c.state := by
  have := key_get hc
  rw [← h.key, List.getElem?_map, Option.map_eq_some_iff] at this
  obtain ⟨c', e1, e2⟩ := this
  exact ⟨c', e1, (Prod.mk.inj e2).1⟩

/-- Between messages only the states of the channels matter. -/
theorem Cnt.hdr {m m' : Mux} (h : Cnt m) (hk : m'.chans.map keyOf = m.chans.map keyOf) (hn : m'.nrNotClosed = m.nrNotClosed)
    (hs : m'.state = m.state) (h1 : m'.inHdr = true) (h2 : m.inHdr = false → m.msgid ≠ 2) : Cnt m' := by
  have hu : up m' = up m := by rw [up, up, hk]
  refine ⟨?_, ?_, ?_, ?_, fun _ => h1⟩
  · intro g; rw [hu]; exact h.shut (hs ▸ g)
  · intro g1 g2; rw [hu, hn]; exact h.num (hs ▸ g1) (hs ▸ g2)
  · intro g
    obtain ⟨s, e1, e2⟩ := h.first (hs ▸ g)
    refine ⟨s, by rw [hk]; exact e1, ?_⟩
    rcases e2 with e2 | e2 | ⟨_, e3, e4⟩
    · exact Or.inl e2
    · exact Or.inr (Or.inl e2)
    · exact absurd e4 (h2 e3)
  · intro _ _ g; rw [h1] at g; cases g

/-- The same for a mux that has left the opening states. -/
theorem Cnt.go {m' : Mux} (hn : m'.nrNotClosed = up m') (hp : 0 < up m') (h1 : m'.inHdr = true)
    (h2 : m'.state ≠ .closed) (h3 : m'.state ≠ .uninit) (h4 : m'.state ≠ .waitOpen) : Cnt m' :=
  ⟨fun g => absurd g h2, fun _ _ => ⟨hn, hp⟩, fun g => by rcases g with g | g <;> contradiction,
    fun _ _ g => (by rw [h1] at g; cases g), fun g => absurd g h3⟩

theorem Cnt.onInit {m m' : Mux} (h : Cnt m) (hi : m.inHdr = true) (e : m.onInit = some m') : Cnt m' := by
  rw [Mux.onInit] at e
  split at e
  · rw [← Option.some.inj e]; exact Cnt.dead rfl
  · rename_i hs
    have hs : m.state = .uninit := Classical.byContradiction hs
    have hn := h.num (by rw [hs]; decide) (by rw [hs]; decide)
    split at e
    · rw [← Option.some.inj e]
      refine ⟨fun g => (by cases g), fun _ _ => hn, fun _ => h.first (Or.inl hs), fun _ _ g => ?_, fun g => (by cases g)⟩
      have g : m.inHdr = false := g
      rw [hi] at g; cases g
    · have hk := Keep.nextReq e
      have hst := nextReq_state e
      have hst : m'.state = .inOpen := hst
      exact Cnt.go (by rw [hk.nr, hk.up]; exact hn.1) (by rw [hk.up]; exact hn.2) (by rw [hk.inHdr]; exact hi)
        (by rw [hst]; decide) (by rw [hst]; decide) (by rw [hst]; decide)

theorem Cnt.onNew {m m' : Mux} (h : Cnt m) (hi : m.inHdr = true) (h2 : m.msgid = 2) (hu : m.state ≠ .uninit)
    (hcl : m.state ≠ .closed) (hic : m.state ≠ .inClose) {en : Env} (e : m.onNew en = some m') : Cnt m' := by
  have hn := h.num hcl hic
  rw [Mux.onNew] at e
  simp only at e
  split at e
  · rename_i hs
    split at e
    · cases e
    · rename_i i h0
      split at e
      · cases e
      · rename_i c hc
        split at e
        · rw [← Option.some.inj e]; exact Cnt.dead rfl
        · rw [← Option.some.inj e]
          have hfk := firstKey_at h0 hc
          obtain ⟨s, e1, e2⟩ := h.first (Or.inr hs)
          rw [hfk.1] at e1
          have e1 := Option.some.inj e1
          have hnc : c.state ≠ .closed := by
            rw [e1]
            rcases e2 with e2 | e2 | ⟨_, e3, _⟩
            · rw [e2]; decide
            · rw [e2]; decide
            · rw [hi] at e3; cases e3
          have key : ∀ (c' : Chan) (m2 : Mux), m2.chans = m.chans.set i c' → c'.linked = c.linked →
              c'.state = .pendingOpen → m2.state = m.state → m2.nrNotClosed = m.nrNotClosed → m2.inHdr = false →
              m2.msgid = m.msgid → m2.curr = some i → Cnt m2 := by
            intro c' m2 f1 f2 f3 f4 f5 f6 f7 f8
            have hup := up_set hc f1
            rw [if_neg hnc, if_neg (by rw [f3]; decide)] at hup
            have e0 : m2.chan0 = some i := by
              rw [Mux.chan0, f1]
              rw [Mux.chan0] at h0
              obtain ⟨hi, h1, h2⟩ := List.findIdx?_eq_some_iff_getElem.mp h0
              refine List.findIdx?_eq_some_iff_getElem.mpr ⟨by simpa using hi, ?_, fun j hj => ?_⟩
              · rw [List.getElem_set_self, f2]; exact hfk.2
              · rw [List.getElem_set_ne (by omega)]; exact h2 j hj
            have hc1 : m2.chans[i]? = some c' := by
              rw [f1, List.getElem?_set_self (List.getElem?_eq_some_iff.mp hc).1]
            refine ⟨fun g => absurd (f4 ▸ g) hcl, fun _ _ => by omega, fun _ => ?_, fun _ _ _ _ k hk => ?_, fun g => absurd (f4 ▸ g) hu⟩
            · exact ⟨_, (firstKey_at e0 hc1).1, Or.inr (Or.inr ⟨f3, f6, f7.trans h2⟩)⟩
            · rw [f8] at hk
              rw [← Option.some.inj hk, key_get hc1, f3]
              exact ⟨_, rfl⟩
          exact key { c with state := .pendingOpen, window := rd32 m.hdr 4, remoteId := rd16 m.hdr 2 } _
            (by simp [Mux.set]) rfl rfl rfl rfl rfl rfl rfl
  · rename_i hw
    split at e
    · rw [← Option.some.inj e]; exact Cnt.dead rfl
    · split at e
      · rw [← Option.some.inj e]
        exact h.hdr rfl rfl rfl hi (by rw [hi]; intro g; cases g)
      · rename_i id hid
        split at e
        · rw [← Option.some.inj e]; exact Cnt.dead rfl
        · rw [← Option.some.inj e]
          have key : ∀ (c' : Chan) (m2 : Mux), m2.chans = m.chans ++ [c'] → c'.state = .pendingOpen →
              m2.state = m.state → m2.nrNotClosed = m.nrNotClosed + 1 → m2.curr = some m.chans.length → Cnt m2 := by
            intro c' m2 f1 f3 f4 f5 f8
            have hup : up m2 = up m + 1 := by simp [up, f1, isUp, keyOf, f3]
            refine ⟨fun g => absurd (f4 ▸ g) hcl, fun _ _ => by omega, fun g => ?_, fun _ _ _ _ k hk => ?_, fun g => absurd (f4 ▸ g) hu⟩
            · rw [f4] at g
              rcases g with g | g
              · exact absurd g hu
              · exact absurd g hw
            · rw [f8] at hk
              rw [← Option.some.inj hk, f1]
              exact ⟨c'.linked, by simp [keyOf, f3]⟩
          exact key _ _ rfl rfl rfl rfl rfl

theorem Cnt.onRsp {m m' : Mux} (h : Cnt m) (hi : m.inHdr = true)
    (hcl : m.state ≠ .closed) (hic : m.state ≠ .inClose) (e : m.onRsp = some m') (hr : refused m m' = false) : Cnt m' := by
  have hn := h.num hcl hic
  rw [Mux.onRsp] at e
  split at e
  · rw [← Option.some.inj e]; exact Cnt.dead rfl
  · rename_i i hf
    split at e
    · cases e
    · rename_i c hc
      split at e
      · rw [← Option.some.inj e]; exact Cnt.dead rfl
      · rename_i hs
        have hs : c.state = .inOpen ∨ c.state = .inOpenClose := by
          cases hcs : c.state <;> simp_all
        split at e
        · rw [← Option.some.inj e]; exact Cnt.dead rfl
        · simp only at e
          split at e
          · rw [← Option.some.inj e]; exact Cnt.dead rfl
          · split at e
            · cases e
            · split at e
              · exfalso
                have hk := Keep.nextReq e
                have hlt := (List.getElem?_eq_some_iff.mp hc).1
                obtain ⟨c', g1, g2⟩ := hk.get (List.getElem?_set_self hlt)
                have := refused_of hc g1 (by rcases hs with g | g <;> simp [g]) g2
                rw [hr] at this; cases this
              · have hnc : c.state ≠ .closed := by rcases hs with g | g <;> rw [g] <;> decide
                have key : ∀ (c' : Chan) (m2 : Mux), m2.chans = m.chans.set i c' → c'.state ≠ .closed →
                    m2.state = .opened → m2.nrNotClosed = m.nrNotClosed → m2.inHdr = true → Cnt m2 := by
                  intro c' m2 f1 f3 f4 f5 f6
                  have hup := up_set hc f1
                  rw [if_neg hnc, if_neg f3] at hup
                  exact Cnt.go (by omega) (by omega) f6 (by rw [f4]; decide) (by rw [f4]; decide) (by rw [f4]; decide)
                split at e
                · split at e
                  · cases e
                  · rename_i m1 e1
                    refine Cnt.keep ?_ (Keep.nextReq e) (nextReq_state e)
                    refine Cnt.keep ?_ (Keep.addWr e1) (addWr_state e1)
                    exact key _ _ rfl (by simp) rfl rfl hi
                · refine Cnt.keep ?_ (Keep.nextReq e) (nextReq_state e)
                  exact key _ _ rfl (by simp) rfl rfl hi

theorem Cnt.onClose {m m' : Mux} (h : Cnt m) (hi : m.inHdr = true) (e : m.onClose = some m') : Cnt m' := by
  rw [Mux.onClose] at e
  split at e
  · rw [← Option.some.inj e]; exact Cnt.dead rfl
  · split at e
    · cases e
    · rename_i c hc
      split at e
      · rw [← Option.some.inj e]; exact Cnt.dead rfl
      · rename_i hs
        have hs1 : c.state ≠ .closed := fun g => hs (Or.inl g)
        have hs2 : ¬ (c.state = .inOpen ∨ c.state = .inOpenClose) := fun g => hs (by
          rcases g with g | g
          · exact Or.inr (Or.inl g)
          · exact Or.inr (Or.inr (Or.inl g)))
        simp only at e
        split at e
        · rw [← Option.some.inj e]
          exact h.move hc rfl rfl hs1 (by simp) rfl rfl rfl rfl rfl (by rw [hi]; intro g; cases g) (fun g => absurd g hs2)
        · refine Cnt.keep ?_ (Keep.addWr e) (addWr_state e)
          exact h.move hc rfl rfl hs1 (by simp) rfl rfl rfl rfl rfl (by rw [hi]; intro g; cases g) (fun g => absurd g hs2)

theorem Cnt.data {m m2 : Mux} (h : Cnt m) (hu : m.state ≠ .uninit) (h5 : m.msgid = 5) (f1 : m2.chans.map keyOf = m.chans.map keyOf)
    (f2 : m2.state = m.state) (f3 : m2.nrNotClosed = m.nrNotClosed) (f4 : m2.msgid = m.msgid) : Cnt m2 := by
  have hup : up m2 = up m := by rw [up, up, f1]
  refine ⟨fun g => ?_, fun g1 g2 => ?_, fun g => ?_, fun _ _ _ g => ?_, fun g => absurd (f2 ▸ g) hu⟩
  · rw [hup]; exact h.shut (f2 ▸ g)
  · rw [hup, f3]; exact h.num (f2 ▸ g1) (f2 ▸ g2)
  · obtain ⟨s, e1, e2⟩ := h.first (f2 ▸ g)
    refine ⟨s, by rw [f1]; exact e1, ?_⟩
    rcases e2 with e2 | e2 | ⟨_, e3, e4⟩
    · exact Or.inl e2
    · exact Or.inr (Or.inl e2)
    · omega
  · omega

theorem key_unacked (c : Chan) (n : Nat) : keyOf { c with sentUnacked := n } = keyOf c := rfl

theorem Cnt.onData {m m' : Mux} (h : Cnt m) (hu : m.state ≠ .uninit) (h5 : m.msgid = 5) (e : m.onData = some m') : Cnt m' := by
  rw [Mux.onData] at e
  split at e
  · rw [← Option.some.inj e]; exact Cnt.dead rfl
  · split at e
    · cases e
    · rename_i i _ _ c hc
      split at e
      · rw [← Option.some.inj e]; exact Cnt.dead rfl
      · simp only at e
        split at e
        · rw [← Option.some.inj e]; exact Cnt.dead rfl
        · have h1 : Cnt { m.set i { c with sentUnacked := c.sentUnacked - rd32 m.hdr 4 } with
                     curr := some i, dataPos := 0, inHdr := false } :=
            h.data hu h5 (map_set_key hc (key_unacked c _)) rfl rfl rfl
          split at e
          · exact h1.keep (Keep.addWr e) (addWr_state e)
          · rw [← Option.some.inj e]
            exact h1

theorem Cnt.rxHdr {m m' : Mux} (h : Cnt m) (hi : m.inHdr = true) (hcl : m.state ≠ .closed) (hic : m.state ≠ .inClose)
    {b : UInt8} {en : Env} (e : m.rxHdr b en = some m') (hr : refused m m' = false) : Cnt m' := by
  have hv : m.inHdr = false → m.msgid ≠ 2 := by rw [hi]; intro g; cases g
  rw [Mux.rxHdr] at e
  split at e
  · simp only at e
    split at e
    · rw [← Option.some.inj e]; exact Cnt.dead rfl
    · split at e
      · rw [← Option.some.inj e]; exact Cnt.dead rfl
      · split at e
        · rw [← Option.some.inj e]; exact Cnt.dead rfl
        · rw [← Option.some.inj e]; exact h.hdr rfl rfl rfl hi hv
  · split at e
    · rw [← Option.some.inj e]; exact h.hdr rfl rfl rfl hi hv
    · rw [Mux.onHdr] at e
      have h1 : Cnt { m with hdr := m.hdr.set m.hdrPos b, hdrPos := 0 } := h.hdr rfl rfl rfl hi hv
      simp only at e
      split at e
      · exact h1.onInit hi e
      · split at e
        · rw [← Option.some.inj e]; exact Cnt.dead rfl
        · rename_i hu
          split at e
          · rename_i h2
            exact h1.onNew hi h2 hu hcl hic e
          · split at e
            · exact h1.onRsp hi hcl hic e hr
            · split at e
              · exact h1.onClose hi e
              · split at e
                · rename_i h5
                  exact h1.onData hu h5 e
                · cases e

theorem Cnt.newDone {m m' m0 : Mux} (h : Cnt m) {i : Nat} {c cs : Chan} (hc : m.chans[i]? = some cs)
    (h0 : m0.chans.map keyOf = m.chans.map keyOf)
    (hs : cs.state = .pendingOpen) (hu : m.state ≠ .uninit) (hcl : m.state ≠ .closed) (hic : m.state ≠ .inClose)
    {en : Env} (e : m.newDone i c en = some m') (hr : refused m0 m' = false) : Cnt m' := by
  have hn := h.num hcl hic
  have hnc : cs.state ≠ .closed := by rw [hs]; decide
  have key : ∀ (c' : Chan) (m2 : Mux), m2.chans = m.chans.set i c' → c'.state ≠ .closed →
      m2.state ≠ .closed → m2.state ≠ .uninit → m2.state ≠ .waitOpen →
      m2.nrNotClosed = m.nrNotClosed → m2.inHdr = true → Cnt m2 := by
    intro c' m2 f1 f3 f4 f7 f8 f5 f6
    have hup := up_set hc f1
    rw [if_neg hnc, if_neg f3] at hup
    exact Cnt.go (by omega) (by omega) f6 f4 f7 f8
  rw [Mux.newDone] at e
  split at e
  · rw [← Option.some.inj e]
    exact key _ _ rfl (by simp) (by simp [Mux.sendRsp]) (by simp [Mux.sendRsp]) (by simp [Mux.sendRsp]) rfl rfl
  · rename_i hw
    split at e
    · rw [← Option.some.inj e]; exact Cnt.dead rfl
    · split at e
      · exfalso
        have hlt := (List.getElem?_eq_some_iff.mp hc).1
        have hg : m'.chans[i]? = some { c with state := .closed } := by
          rw [← Option.some.inj e]; exact List.getElem?_set_self hlt
        have g := key_get hc
        rw [← h0, List.getElem?_map, Option.map_eq_some_iff] at g
        obtain ⟨d, d1, d2⟩ := g
        have := refused_of d1 hg (Or.inr (Or.inr ((Prod.mk.inj d2).1.trans hs))) rfl
        rw [hr] at this; cases this
      · split at e
        · split at e
          · cases e
          · rename_i m1 e1
            rw [← Option.some.inj e]
            have hk1 := Keep.addWr e1
            have hs1 := addWr_state e1
            have h3 : Cnt { ((m.set i { c with state := .opened, recvUnacked := c.service.length }).sendRsp c.remoteId
                c.rd.data.length c.id 0) with inHdr := true } :=
              key _ _ rfl (by simp) hcl hu hw rfl rfl
            exact h3.keep ⟨hk1.key, hk1.nr, rfl, hk1.msgid, hk1.curr⟩ hs1
        · rw [← Option.some.inj e]
          exact key _ _ rfl (by simp) hcl hu hw rfl rfl

theorem Cnt.dataDone {m m' : Mux} (h : Cnt m) (hu : m.state ≠ .uninit) (h5 : m.msgid = 5) {i : Nat} {en : Env} (e : m.dataDone i en = some m') :
    Cnt m' := by
  rw [Mux.dataDone] at e
  split at e
  · cases e
  · rename_i m1 e1
    rw [← Option.some.inj e]
    split at e1
    · have hk := Keep.checkRead e1
      have hs := checkRead_state e1
      exact h.data hu h5 hk.key hs hk.nr hk.msgid
    · rw [← Option.some.inj e1]
      exact h.data hu h5 rfl rfl rfl rfl

theorem Cnt.rxLen {m m' : Mux} (h : Cnt m) (hi : m.inHdr = false) (hu : m.state ≠ .uninit) (hcl : m.state ≠ .closed)
    (hic : m.state ≠ .inClose) {b : UInt8} {en : Env} (e : m.rxLen b en = some m') (hr : refused m m' = false) : Cnt m' := by
  rw [Mux.rxLen] at e
  simp only at e
  split at e
  · cases e
  · rename_i i hcu
    split at e
    · cases e
    · rename_i c hc
      split at e
      · rename_i h2
        obtain ⟨l, hl⟩ := h.body hcl hic hi h2 i hcu
        rw [key_get hc] at hl
        have hst : c.state = .pendingOpen := (Prod.mk.inj (Option.some.inj hl)).1
        split at e
        · have h1 : Cnt ({ m with dataSize := m.dataSize + b.toNat, dataPos := 2 }.set i { c with service := [] }) :=
            h.keep ⟨map_set_key hc rfl, rfl, rfl, rfl, rfl⟩ rfl
          have hlt := (List.getElem?_eq_some_iff.mp hc).1
          refine h1.newDone (cs := { c with service := [] }) (m0 := m) (List.getElem?_set_self hlt) (map_set_key (c' := { c with service := [] }) hc rfl).symm hst hu
            hcl hic ?_ hr (en := en) (c := { c with service := [] })
          exact e
        · rw [← Option.some.inj e]
          exact h.keep ⟨map_set_key hc rfl, rfl, rfl, rfl, rfl⟩ rfl
      · split at e
        · rename_i h5
          split at e
          · refine Cnt.dataDone ?_ ?_ ?_ e
            · exact h.keep ⟨rfl, rfl, rfl, rfl, rfl⟩ rfl
            · exact hu
            · exact h5
          · split at e
            · rw [← Option.some.inj e]; exact Cnt.dead rfl
            · split at e
              · cases e
              · rw [← Option.some.inj e]
                exact h.keep ⟨map_set_key hc rfl, rfl, rfl, rfl, rfl⟩ rfl
        · cases e

theorem Cnt.rxBody {m m' : Mux} (h : Cnt m) (hi : m.inHdr = false) (hu : m.state ≠ .uninit) (hcl : m.state ≠ .closed)
    (hic : m.state ≠ .inClose) {b : UInt8} {en : Env} (e : m.rxBody b en = some m') (hr : refused m m' = false) : Cnt m' := by
  rw [Mux.rxBody] at e
  split at e
  · cases e
  · rename_i i hcu
    split at e
    · cases e
    · rename_i c hc
      split at e
      · rename_i h2
        obtain ⟨l, hl⟩ := h.body hcl hic hi h2 i hcu
        rw [key_get hc] at hl
        have hst : c.state = .pendingOpen := (Prod.mk.inj (Option.some.inj hl)).1
        split at e
        · cases e
        · simp only at e
          split at e
          · rw [← Option.some.inj e]
            exact h.keep ⟨map_set_key hc rfl, rfl, rfl, rfl, rfl⟩ rfl
          · have h1 : Cnt (m.set i { c with service := c.service ++ [b] }) :=
              h.keep ⟨map_set_key hc rfl, rfl, rfl, rfl, rfl⟩ rfl
            have hlt := (List.getElem?_eq_some_iff.mp hc).1
            refine h1.newDone (cs := { c with service := c.service ++ [b] }) (m0 := m) (List.getElem?_set_self hlt)
              (map_set_key (c' := { c with service := c.service ++ [b] }) hc rfl).symm hst hu hcl hic ?_ hr (en := en) (c := { c with service := c.service ++ [b] })
            exact e
      · split at e
        · rename_i h5
          split at e
          · cases e
          · simp only at e
            split at e
            · rw [← Option.some.inj e]
              exact h.keep ⟨map_set_key hc rfl, rfl, rfl, rfl, rfl⟩ rfl
            · refine Cnt.dataDone ?_ ?_ ?_ e
              · exact h.keep ⟨map_set_key hc rfl, rfl, rfl, rfl, rfl⟩ rfl
              · exact hu
              · exact h5
        · cases e

theorem Cnt.rxByte {m m' : Mux} (h : Cnt m) {b : UInt8} {en : Env} (e : m.rxByte b en = some m')
    (hr : refused m m' = false) : Cnt m' := by
  rw [Mux.rxByte] at e
  split at e
  · rw [← Option.some.inj e]
    exact h.keep ⟨rfl, rfl, rfl, rfl, rfl⟩ rfl
  · rename_i hs
    have hic : m.state ≠ .inClose := fun g => hs (Or.inl g)
    have hcl : m.state ≠ .closed := fun g => hs (Or.inr g)
    split at e
    · rename_i hi
      exact h.rxHdr hi hcl hic e hr
    · rename_i hi
      have hi : m.inHdr = false := by simpa using hi
      have hu : m.state ≠ .uninit := fun g => by rw [h.ini g] at hi; cases hi
      split at e
      · rw [← Option.some.inj e]
        exact h.keep ⟨rfl, rfl, rfl, rfl, rfl⟩ rfl
      · split at e
        · exact h.rxLen hi hu hcl hic e hr
        · exact h.rxBody hi hu hcl hic e hr

theorem Cnt.step {m m' : Mux} (h : Cnt m) {op : Op} (e : m.step op = some m')
    (h0 : ∀ i, op = .opn i → m.state = .closed → m.chan0 = some i) (hr : refused m m' = false) : Cnt m' := by
  cases op with
  | alloc id service =>
    rw [Mux.step] at e
    rw [← Option.some.inj e]
    exact h.alloc id service
  | opn i =>
    rw [Mux.step, Mux.open] at e
    split at e
    · rename_i hs
      exact h.openFirst hs (h0 i rfl hs) e
    · rename_i hs
      exact h.openChan hs e
  | write i sg eom oob =>
    rw [Mux.step] at e
    split at e
    · cases e
    · rename_i m2 r hw
      rw [← Option.some.inj e]
      rw [Mux.write] at hw
      have done : ∀ v, some (m, v) = some (m2, r) → Cnt m2 := by
        intro v hv
        rw [← (Prod.mk.inj (Option.some.inj hv)).1]
        exact h
      split at hw
      · cases hw
      · rename_i c hc
        split at hw
        · exact done _ hw
        · split at hw
          · exact done _ hw
          · split at hw
            · exact done _ hw
            · split at hw
              · exact done _ hw
              · split at hw
                · cases hw
                · rename_i m3 hq
                  rw [← (Prod.mk.inj (Option.some.inj hw)).1]
                  rw [Mux.queue] at hq
                  split at hq
                  · cases hq
                  · split at hq
                    · cases hq
                    · refine Cnt.keep ?_ (Keep.addWr hq) (addWr_state hq)
                      exact h.keep (Keep.set hc rfl) rfl
  | close i => exact h.close e
  | readEnable i en =>
    rw [Mux.step, Mux.readEnable] at e
    split at e
    · cases e
    · rename_i c hc
      rw [← Option.some.inj e]; exact h.keep (Keep.set hc rfl) rfl
  | oob i en =>
    rw [Mux.step, Mux.setOob] at e
    split at e
    · cases e
    · rename_i c hc
      rw [← Option.some.inj e]; exact h.keep (Keep.set hc rfl) rfl
  | deferred i ans => exact h.deferred e
  | writeReady ans =>
    rw [Mux.step, Mux.writeReady] at e
    split at e
    · rw [← Option.some.inj e]
      exact h.keep ⟨rfl, rfl, rfl, rfl, rfl⟩ rfl
    · obtain ⟨hk, hs⟩ := Keep.flush ans m m' e
      rcases hs with hs | hs
      · exact h.keep hk hs
      · exact Cnt.dead hs
  | recv b en => exact h.rxByte e hr

def Mux.opensFirst (m : Mux) : Op → Bool
  | .opn i => decide (m.state = .closed → m.chan0 = some i)
  | _ => true

/-- A history in which no new channel is refused and the mux is opened by its first channel. -/
def Mux.calm (m : Mux) : List Op → Bool
  | [] => true
  | op :: ops =>
    m.opensFirst op &&
    (match m.step op with
      | none => true
      | some m' => !refused m m' && m'.calm ops)

theorem Cnt.run : ∀ (ops : List Op) (m m' : Mux), Cnt m → m.calm ops = true → m.run ops = some m' → Cnt m'
  | [], m, m', h, _, e => by rw [Mux.run] at e; rw [← Option.some.inj e]; exact h
  | op :: ops, m, m', h, hc, e => by
    rw [Mux.run] at e
    rw [Mux.calm, Bool.and_eq_true] at hc
    split at e
    · cases e
    · rename_i m1 e1
      rw [e1] at hc
      have h2 := hc.2
      simp only [Bool.and_eq_true, Bool.not_eq_true'] at h2
      refine Cnt.run ops m1 m' (h.step e1 ?_ h2.1) h2.2 e
      intro i hi hs
      have h3 := hc.1
      rw [hi] at h3
      exact of_decide_eq_true h3 hs

theorem up_zero {m : Mux} : up m = 0 ↔ ∀ c ∈ m.chans, c.state = .closed := by
  rw [up, List.countP_eq_zero]
  constructor
  · intro h c hc
    exact Classical.byContradiction fun g => h (keyOf c) (List.mem_map_of_mem hc) (by simp [isUp, keyOf, g])
  · intro h k hk
    obtain ⟨c, hc, rfl⟩ := List.mem_map.mp hk
    simp [isUp, keyOf, h c hc]

/-- C72, partly: in a history without refused channels, opened by the first channel, `nr_not_closed` is the number of
channels that are not closed; while the mux is neither closed nor closing its child at least one channel is not closed,
so when the last one is closed the child is being closed; and finishing the close of a channel starts closing the child
only when no other channel is open.

Missing: histories with refused channels (`C72_refused_violated`), and those opened by another than the first channel. -/
theorem C72_last_close_partial {isClient : Bool} {maxRead maxWrite : Nat} (ops : List Op) {m : Mux}
    (hc : (Mux.start isClient maxRead maxWrite).calm ops = true)
    (e : (Mux.start isClient maxRead maxWrite).run ops = some m) (h1 : m.state ≠ .closed) (h2 : m.state ≠ .inClose) :
    m.nrNotClosed = m.chans.countP (fun c => decide (c.state ≠ .closed))
    ∧ (∃ c ∈ m.chans, c.state ≠ .closed)
    ∧ (∀ i ans m', m.step (.deferred i ans) = some m' →
        (m'.state = .inClose ↔ ∀ c ∈ m'.chans, c.state = .closed)) := by
  have h : Cnt m := by
    refine Cnt.run ops _ m ⟨fun _ => rfl, fun g => absurd rfl g, fun g => ?_, fun g => absurd rfl g, fun g => ?_⟩ hc e
    · rcases g with g | g <;> cases g
    · cases g
  have hn := h.num h1 h2
  refine ⟨?_, ?_, ?_⟩
  · rw [hn.1, up, List.countP_map]
    rfl
  · exact Classical.byContradiction fun g => by
      have : up m = 0 := up_zero.mpr fun c hcm => Classical.byContradiction fun gg => g ⟨c, hcm, gg⟩
      omega
  · intro i ans m' ed
    have ed : m.deferred i ans = some m' := ed
    rw [Mux.deferred] at ed
    split at ed
    · cases ed
    · rename_i m1 e1
      have hk := Keep.checkRead e1
      have hs := checkRead_state e1
      have g1 : m1.nrNotClosed = up m1 ∧ 0 < up m1 := by rw [hk.nr, hk.up]; exact hn
      split at ed
      · cases ed
      · rename_i c hc
        split at ed
        · rename_i hcs
          have hcs := hcs.2
          have key : ∀ (c' : Chan) (m2 : Mux), m2.chans = m1.chans.set i c' → c'.state = .closed → up m2 = m1.nrNotClosed - 1 := by
            intro c' m2 f1 f2
            have hu := up_set hc f1
            rw [if_neg (by rw [hcs]; decide), if_pos f2] at hu
            omega
          split at ed
          · cases ed
          · simp only at ed
            rw [← up_zero]
            split at ed
            · rename_i hz
              rw [← Option.some.inj ed, key _ _ rfl rfl]
              exact ⟨fun _ => hz, fun _ => rfl⟩
            · rename_i hz
              rw [← Option.some.inj ed, key _ _ rfl rfl]
              refine ⟨fun g => absurd (hs.symm.trans g) h2, fun g => absurd g hz⟩
        · rw [← Option.some.inj ed, ← up_zero, hs]
          exact ⟨fun g => absurd g h2, fun g => by omega⟩

/-- Two channels are opened and accepted, and closed by both ends; the child is closed with the second one. -/
def twoClosed : List Op :=
  twoOps ++ ([0x33, 0, 0, 1, 0, 0, 0, 200, 0, 8, 0, 0] : List UInt8).map (fun b => Op.recv b {})
  ++ [.close 1, .writeReady [some 99]] ++ ([0x42, 0, 0, 1, 0, 0, 0, 0] : List UInt8).map (fun b => Op.recv b {})
  ++ [.deferred 1 [], .close 0, .writeReady [some 99]]
  ++ ([0x42, 0, 0, 0, 0, 0, 0, 0] : List UInt8).map (fun b => Op.recv b {})

example : (Mux.start true 132 32).calm (twoClosed ++ [.deferred 0 []]) = true
    ∧ ((Mux.start true 132 32).run twoClosed).map (fun m => (m.state, m.nrNotClosed, m.chans.map Chan.state))
      = some (.opened, 1, [.inCloseFinal, .closed])
    ∧ ((Mux.start true 132 32).run (twoClosed ++ [.deferred 0 []])).map (fun m => (m.state, m.chans.map Chan.state))
      = some (.inClose, [.closed, .closed]) := by
  refine ⟨by decide +kernel, by decide +kernel, by decide +kernel⟩

/-- C72 fails when a channel has been refused: :2395-2404 closes the channel without counting it, :804 is the only place
that counts down.  All channels are closed, but the mux stays open with `nr_not_closed` 1, and nothing ever closes the
child. -/
theorem C72_refused_violated : ∃ (ops : List Op) (m : Mux), (Mux.start true 132 32).run ops = some m
    ∧ m.chans.map Chan.state = [.closed, .closed] ∧ m.state = .opened ∧ m.nrNotClosed = 1 := by
  have h : ((Mux.start true 132 32).run (twoOps ++ refuse ++ [.close 0, .writeReady [some 99]]
      ++ ([0x42, 0, 0, 0, 0, 0, 0, 0] : List UInt8).map (fun b => Op.recv b {}) ++ [.deferred 0 []])).any (fun m =>
      decide (m.chans.map Chan.state = [.closed, .closed] ∧ m.state = .opened ∧ m.nrNotClosed = 1)) = true := by
    decide +kernel
  rw [Option.any_eq_true] at h
  obtain ⟨m, e, h⟩ := h
  exact ⟨_, m, e, of_decide_eq_true h⟩

end Gensio.Mux
