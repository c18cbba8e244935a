import Verif.Props.MuxIso
import Verif.Props.MuxFrame

/-!
# What the other end can do to the receive buffers and to the list of channels of a mux (C73)
-/

namespace Gensio.Mux

/-- A data message is being received. -/
def Mux.Active (m : Mux) : Prop :=
  m.state ≠ .inClose ∧ m.state ≠ .closed ∧ m.inHdr = false ∧ m.msgid = 5 ∧ 2 ≤ m.dataPos

/-- No receive buffer grows, and no message is begun. -/
structure Shr (m m' : Mux) : Prop where
  len : m.chans.length ≤ m'.chans.length
  old : ∀ (i : Nat) (c' : Chan), m'.chans[i]? = some c' →
    (∃ c, m.chans[i]? = some c ∧ c'.rd.len ≤ c.rd.len ∧ c'.rd.data.length = c.rd.data.length)
    ∨ (m.chans.length ≤ i ∧ c'.rd.len = 0 ∧ c'.rd.data.length = m.maxRead)
  maxRead : m'.maxRead = m.maxRead
  act : m'.Active → m.Active ∧ m'.curr = m.curr ∧ m'.dataPos = m.dataPos ∧ m'.dataSize = m.dataSize
  curr : m'.curr = m.curr ∨ m'.curr = none ∨ ∃ i, m'.curr = some i ∧ i < m'.chans.length

/-- The buffers hold no more than their size, also when the message being received is complete. -/
structure Fits (R : Nat) (m : Mux) : Prop where
  size : ∀ (i : Nat) (c : Chan), m.chans[i]? = some c → c.rd.data.length = m.maxRead ∧ c.rd.len ≤ m.maxRead
  room : m.Active → ∀ (i : Nat) (c : Chan), m.curr = some i → m.chans[i]? = some c →
    m.dataPos < m.dataSize + 2 ∧ c.rd.len + (m.dataSize + 2 - m.dataPos) ≤ m.maxRead
  curr : ∀ i, m.curr = some i → i < m.chans.length
  mx : m.maxRead = R

theorem Fits.shr {R : Nat} {m m' : Mux} (h : Fits R m) (s : Shr m m') : Fits R m' := by
  constructor
  · intro i c' hc'
    rw [s.maxRead]
    rcases s.old i c' hc' with ⟨c, hc, h1, h2⟩ | ⟨-, h1, h2⟩
    · have := h.size i c hc; omega
    · omega
  · intro ha i c' hi hc'
    obtain ⟨ha, e1, e2, e3⟩ := s.act ha
    rw [e1] at hi
    rw [s.maxRead, e2, e3]
    rcases s.old i c' hc' with ⟨c, hc, h1, h2⟩ | ⟨h0, h1, h2⟩
    · have := h.room ha i c hi hc; omega
    · have := h.curr i hi; omega
  · intro i hi
    rcases s.curr with e | e | ⟨j, e, hj⟩
    · rw [e] at hi; have := h.curr i hi; have := s.len; omega
    · rw [e] at hi; cases hi
    · rw [e] at hi; rw [← Option.some.inj hi]; exact hj
  · rw [s.maxRead]; exact h.mx

theorem Shr.trans {a b c : Mux} (h : Shr a b) (g : Shr b c) : Shr a c := by
  constructor
  · have := h.len; have := g.len; omega
  · intro i d hd
    rcases g.old i d hd with ⟨d1, e1, h1, h2⟩ | ⟨h0, h1, h2⟩
    · rcases h.old i d1 e1 with ⟨d2, e2, g1, g2⟩ | ⟨g0, g1, g2⟩
      · exact Or.inl ⟨d2, e2, by omega, by omega⟩
      · exact Or.inr ⟨g0, by omega, by omega⟩
    · have := h.len; exact Or.inr ⟨by omega, h1, by rw [h2, h.maxRead]⟩
  · rw [g.maxRead, h.maxRead]
  · intro hc
    obtain ⟨g1, g2, g3, g4⟩ := g.act hc
    obtain ⟨h1, h2, h3, h4⟩ := h.act g1
    exact ⟨h1, g2.trans h2, g3.trans h3, g4.trans h4⟩
  · rcases g.curr with e | e
    · rcases h.curr with f | f | ⟨i, f, hi⟩
      · exact Or.inl (e.trans f)
      · exact Or.inr (Or.inl (e.trans f))
      · exact Or.inr (Or.inr ⟨i, e.trans f, by have := g.len; omega⟩)
    · exact Or.inr e

theorem Shr.after {a b c : Mux} (g : Shr b c) (h : Shr a b) : Shr a c := h.trans g

/-- The channels stay. -/
theorem Shr.same {m m' : Mux} (hc : m'.chans = m.chans) (hm : m'.maxRead = m.maxRead) (hcu : m'.curr = m.curr ∨ m'.curr = none)
    (ha : m'.Active → m.Active ∧ m'.curr = m.curr ∧ m'.dataPos = m.dataPos ∧ m'.dataSize = m.dataSize) : Shr m m' := by
  refine ⟨by rw [hc]; exact Nat.le_refl _, fun i c h => Or.inl ⟨c, by rw [← hc]; exact h, Nat.le_refl _, rfl⟩, hm, ha, ?_⟩
  rcases hcu with e | e
  · exact Or.inl e
  · exact Or.inr (Or.inl e)

theorem Shr.refl (m : Mux) : Shr m m := .same rfl rfl (Or.inl rfl) (fun h => ⟨h, rfl, rfl, rfl⟩)

/-- One channel changes and its buffer does not grow. -/
theorem Shr.set {m : Mux} {i : Nat} {c c' : Chan} (hc : m.chans[i]? = some c) (h1 : c'.rd.len ≤ c.rd.len)
    (h2 : c'.rd.data.length = c.rd.data.length) : Shr m (m.set i c') := by
  refine ⟨by simp [Mux.set], ?_, rfl, fun h => ⟨h, rfl, rfl, rfl⟩, Or.inl rfl⟩
  intro j d hd
  rw [show (m.set i c').chans[j]? = if j = i then some c' else m.chans[j]? from set_get hc] at hd
  split at hd
  · rename_i hj
    subst hj
    rw [← Option.some.inj hd]
    exact Or.inl ⟨c, hc, h1, h2⟩
  · exact Or.inl ⟨d, hd, Nat.le_refl _, rfl⟩

theorem Shr.addWr {m m' : Mux} {i : Nat} (e : m.addWr i = some m') : Shr m m' := by
  rw [Mux.addWr] at e
  split at e
  · cases e
  · rename_i c hc
    split at e
    · rw [← Option.some.inj e]; exact .refl m
    · split at e
      · cases e
      · rw [← Option.some.inj e]
        exact (Shr.set (c' := { c with wrReady := true, inWrlist := true }) hc (Nat.le_refl _) rfl).trans
          (.same rfl rfl (Or.inl rfl) (fun h => ⟨h, rfl, rfl, rfl⟩))

/-- A channel changes and then things that are not about receiving. -/
theorem Shr.setThen {m m' : Mux} {i : Nat} {c c' : Chan} (hc : m.chans[i]? = some c) (h1 : c'.rd.len ≤ c.rd.len)
    (h2 : c'.rd.data.length = c.rd.data.length) (g : Shr (m.set i c') m') : Shr m m' := (Shr.set hc h1 h2).trans g

theorem setupNew_rd {c c' : Chan} (e : c.setupNew = some c') : c'.rd = c.rd := by
  rw [Chan.setupNew] at e; split at e <;> simp_all; rw [← e]

theorem setupClose_rd {c c' : Chan} (e : c.setupClose = some c') : c'.rd = c.rd := by
  rw [Chan.setupClose] at e; split at e <;> simp_all; rw [← e]

theorem setupAck_rd (c : Chan) (h : List UInt8) : (c.setupAck h).1.rd = c.rd := by
  rw [Chan.setupAck]; split <;> rfl

theorem setupData_rd {c c' : Chan} {b : Bool} (e : c.setupData = some (c', b)) : c'.rd = c.rd := by
  rw [Chan.setupData] at e
  simp only at e
  split at e
  · cases e
  · split at e
    · have := congrArg Prod.fst (Option.some.inj e); simp only at this; rw [← this]; exact setupAck_rd ..
    · split at e
      · cases e
      · split at e
        · cases e
        · split at e
          · have := congrArg Prod.fst (Option.some.inj e); simp only at this; rw [← this]; exact setupAck_rd ..
          · have := congrArg Prod.fst (Option.some.inj e); simp only at this; rw [← this]; rfl

theorem Shr.pickOne {m m' : Mux} {i : Nat} {c : Chan} {b : Bool} (hc : m.chans[i]? = some c)
    (e : m.pickOne i c = some (m', b)) : Shr m m' := by
  have q : ∀ {a : Mux} {s : Option Nat}, Shr a { a with sending := s } :=
    .same rfl rfl (Or.inl rfl) (fun h => ⟨h, rfl, rfl, rfl⟩)
  rw [Mux.pickOne] at e
  split at e
  · split at e
    · cases e
    · rename_i c2 h2
      have := congrArg Prod.fst (Option.some.inj e); simp only at this; rw [← this]
      have hr := setupNew_rd h2
      exact .setThen (c' := { c2 with sendNew := false }) hc (by simp only [hr]; exact Nat.le_refl _) (by simp only [hr]) q
  · split at e
    · split at e
      · cases e
      · rename_i c2 h2
        have := congrArg Prod.fst (Option.some.inj e); simp only at this; rw [← this]
        have hr := setupData_rd h2
        exact .setThen (c' := c2) hc (by rw [hr]; exact Nat.le_refl _) (by rw [hr]) q
      · rename_i c2 h2
        have := congrArg Prod.fst (Option.some.inj e); simp only at this; rw [← this]
        have hr := setupData_rd h2
        exact .set (c' := { c2 with wrReady := false }) hc (by simp only [hr]; exact Nat.le_refl _) (by simp only [hr])
    · split at e
      · split at e
        · cases e
        · rename_i c2 h2
          split at e
          · cases e
          · rename_i m2 ha
            split at e
            · cases e
            · rename_i c3 h3
              have := congrArg Prod.fst (Option.some.inj e); simp only at this; rw [← this]
              have hr := setupClose_rd h2
              refine .setThen (c' := c2) hc (by rw [hr]; exact Nat.le_refl _) (by rw [hr]) ?_
              refine (Shr.addWr ha).trans ?_
              exact .setThen (c' := { c3 with sendClose := false, closeSent := true }) h3 (Nat.le_refl _) rfl q
      · have := congrArg Prod.fst (Option.some.inj e); simp only at this; rw [← this]
        exact .set (c' := { c with wrReady := false }) hc (Nat.le_refl _) rfl

theorem Shr.pick {m' : Mux} (l : List Nat) : ∀ (m : Mux), m.pick l = some m' → Shr m m' := by
  induction l with
  | nil =>
    intro m e
    rw [Mux.pick] at e
    rw [← Option.some.inj e]
    exact .same rfl rfl (Or.inl rfl) (fun h => ⟨h, rfl, rfl, rfl⟩)
  | cons i l ih =>
    intro m e
    rw [Mux.pick] at e
    split at e
    · cases e
    · rename_i c hc
      have h1 : Shr m ({ m.set i { c with inWrlist := false } with wrchans := l } : Mux) :=
        .setThen (c' := { c with inWrlist := false }) hc (Nat.le_refl _) rfl
          (.same rfl rfl (Or.inl rfl) (fun h => ⟨h, rfl, rfl, rfl⟩))
      have h2 : ({ m.set i { c with inWrlist := false } with wrchans := l } : Mux).chans[i]?
          = some { c with inWrlist := false } := by
        show (m.set i { c with inWrlist := false }).chans[i]? = _
        simp [Mux.set, lt_of_get hc]
      split at e
      · cases e
      · rename_i m2 hp
        rw [← Option.some.inj e]
        exact h1.trans (.pickOne h2 hp)
      · rename_i m2 hp
        exact h1.trans ((Shr.pickOne h2 hp).trans (ih _ e))

theorem Shr.endWrite (m : Mux) : Shr m m.endWrite := .same rfl rfl (Or.inl rfl) (fun h => ⟨h, rfl, rfl, rfl⟩)

theorem Shr.fail (m : Mux) : Shr m m.fail := .same rfl rfl (Or.inl rfl) (fun h => absurd rfl h.1)
theorem Shr.proto (m : Mux) : Shr m m.proto := .same rfl rfl (Or.inl rfl) (fun h => absurd rfl h.1)

theorem Shr.sendXmit (m : Mux) (n : Nat) : Shr m (m.sendXmit n) := by
  rw [Mux.sendXmit]; split <;> exact .same rfl rfl (Or.inl rfl) (fun h => ⟨h, rfl, rfl, rfl⟩)

theorem Shr.sentAll {m : Mux} {i : Nat} {c d : Chan} (hc : m.chans[i]? = some c) (hd : d.rd = c.rd) :
    Shr m (m.sentAll i d) := by
  rw [Mux.sentAll]
  generalize (if d.curLen ≤ d.wr.len then d.wr.len - d.curLen else d.wr.len + 18446744073709551616 - d.curLen) = L
  have w : ∀ {c' : Chan}, c'.rd = d.rd → Shr m (m.set i c') := fun h => .set hc (by rw [h, hd]; exact Nat.le_refl _) (by rw [h, hd])
  simp only
  split
  · exact (w (c' := { d with wr := { d.wr with pos := d.wr.next d.curLen, len := L }, curLen := 0, sg := [], inWrlist := true })
      rfl).trans (.same rfl rfl (Or.inl rfl) (fun h => ⟨h, rfl, rfl, rfl⟩))
  · exact (w (c' := { d with wr := { d.wr with pos := d.wr.next d.curLen, len := L }, curLen := 0, sg := [], wrReady := false })
      rfl).trans (.same rfl rfl (Or.inl rfl) (fun h => ⟨h, rfl, rfl, rfl⟩))

theorem Shr.sendPart {m m' : Mux} {i n : Nat} (e : m.sendPart i n = some m') : Shr m m' := by
  rw [Mux.sendPart] at e
  split at e
  · cases e
  · rename_i c hc
    split at e
    · cases e
    · simp only at e
      have h0 : Shr m { m with out := m.out ++ c.pend.take n } := .same rfl rfl (Or.inl rfl) (fun h => ⟨h, rfl, rfl, rfl⟩)
      refine h0.trans ?_
      have hc0 : ({ m with out := m.out ++ c.pend.take n } : Mux).chans[i]? = some c := hc
      split at e
      · rw [← Option.some.inj e]; exact .sentAll hc0 rfl
      · rw [← Option.some.inj e]
        exact .set hc0 (Nat.le_refl _) rfl

theorem Shr.maybePick {m m' : Mux} (e : (if m.idle then m.pick m.wrchans else some m) = some m') : Shr m m' := by
  split at e
  · exact .pick _ _ e
  · rw [← Option.some.inj e]; exact .refl m

theorem Shr.flush {m' : Mux} (ans : List (Option Nat)) : ∀ (m : Mux), m.flush ans = some m' → Shr m m' := by
  induction ans with
  | nil =>
    intro m e
    rw [Mux.flush] at e
    split at e
    · cases e
    · rename_i m2 hp
      rw [← Option.some.inj e]
      exact (Shr.maybePick hp).trans (.endWrite m2)
  | cons a ans ih =>
    intro m e
    rw [Mux.flush] at e
    split at e
    · cases e
    · rename_i m2 hp
      refine (Shr.maybePick hp).trans ?_
      split at e
      · split at e
        · rw [← Option.some.inj e]; exact .fail m2
        · split at e
          · cases e
          · rename_i m3 hs
            refine (Shr.sendPart hs).trans ?_
            split at e
            · exact ih _ e
            · rw [← Option.some.inj e]; exact .endWrite m3
      · split at e
        · rw [← Option.some.inj e]; exact .endWrite m2
        · split at e
          · rw [← Option.some.inj e]; exact .fail m2
          · split at e
            · exact (Shr.sendXmit m2 _).trans (ih _ e)
            · rw [← Option.some.inj e]; exact (Shr.sendXmit m2 _).trans (.endWrite _)

/-! ## Delivering -/

/-- The buffer does not grow. -/
def RdLe (c c' : Chan) : Prop := c'.rd.len ≤ c.rd.len ∧ c'.rd.data.length = c.rd.data.length

theorem RdLe.refl (c : Chan) : RdLe c c := ⟨Nat.le_refl _, rfl⟩
theorem RdLe.trans {a b c : Chan} (h : RdLe a b) (g : RdLe b c) : RdLe a c := ⟨Nat.le_trans g.1 h.1, g.2.trans h.2⟩

theorem afterRead_le (c : Chan) (f : UInt8) (len olen : Nat) : RdLe c (c.afterRead f len olen) := by
  rw [Chan.afterRead]
  split
  · exact ⟨Nat.sub_le _ _, by simp⟩
  · exact ⟨Nat.sub_le _ _, rfl⟩

theorem deliver2_le (c : Chan) (f : UInt8) (o : Bool) (pos len olen : Nat) (a : Ans) :
    RdLe c (c.deliver2 f o pos len olen a) := by
  rw [Chan.deliver2, Chan.callback]
  exact RdLe.trans (b := { c with readEnabled := _, calls := _ }) ⟨Nat.le_refl _, rfl⟩ (afterRead_le _ _ _ _)

theorem deliver_le (c : Chan) (len : Nat) (ans : List Ans) : RdLe c (c.deliver len ans).1 := by
  rw [Chan.deliver]
  simp only
  split
  · exact deliver2_le ..
  · split
    · split
      · exact RdLe.trans (b := { c with readEnabled := _, calls := _ }) ⟨Nat.le_refl _, rfl⟩ (afterRead_le _ _ _ _)
      · exact RdLe.trans (b := { c with readEnabled := _, calls := _ }) ⟨Nat.le_refl _, rfl⟩ (deliver2_le ..)
    · exact deliver2_le ..

theorem readLoop_le {c' : Chan} : ∀ (fuel : Nat) (c : Chan) (ans : List Ans), c.readLoop fuel ans = some c' → RdLe c c' := by
  intro fuel
  induction fuel with
  | zero =>
    intro c ans e
    rw [Chan.readLoop] at e
    rw [← Option.some.inj e]; exact .refl c
  | succ fuel ih =>
    intro c ans e
    rw [Chan.readLoop] at e
    split at e
    · cases e
    · split at e
      · rw [← Option.some.inj e]; exact .refl c
      · split at e
        · exact (deliver_le c _ ans).trans (ih _ _ e)
        · split at e
          · rw [← Option.some.inj e]; exact ⟨Nat.le_refl _, rfl⟩
          · rw [← Option.some.inj e]; exact .refl c

theorem Shr.checkRead {m m' : Mux} {i : Nat} {ans : List Ans} (e : m.checkRead i ans = some m') : Shr m m' := by
  rw [Mux.checkRead] at e
  split at e
  · cases e
  · rename_i c hc
    split at e
    · cases e
    · rename_i c2 h2
      have hl := readLoop_le _ _ _ h2
      split at e
      · exact .setThen hc hl.1 hl.2 (.addWr e)
      · rw [← Option.some.inj e]; exact .set hc hl.1 hl.2

/-! ## Receiving -/

theorem Shr.nextReq {m m' : Mux} (e : m.nextReq = some m') : Shr m m' := by
  rw [Mux.nextReq] at e
  split at e
  · rename_i i l hl
    split at e
    · cases e
    · rename_i c hc
      have h0 : Shr m { m with openchans := l } := .same rfl rfl (Or.inl rfl) (fun h => ⟨h, rfl, rfl, rfl⟩)
      exact h0.trans (.setThen (c' := { c with inOpenChan := false }) (show ({ m with openchans := l } : Mux).chans[i]? = _ from hc)
        (Nat.le_refl _) rfl (.addWr e))
  · split at e
    · rw [← Option.some.inj e]; exact .refl m
    · cases e

/-- While a header is received nothing is active. -/
theorem idle_of {m m' : Mux} (h : m'.inHdr = true) : m'.Active → m.Active ∧ m'.curr = m.curr ∧ m'.dataPos = m.dataPos
    ∧ m'.dataSize = m.dataSize := fun ha => by have := ha.2.2.1; rw [h] at this; cases this

/-- At the beginning of a body nothing is active. -/
theorem idle_pos {m m' : Mux} (h : m'.dataPos < 2) : m'.Active → m.Active ∧ m'.curr = m.curr ∧ m'.dataPos = m.dataPos
    ∧ m'.dataSize = m.dataSize := fun ha => by have := ha.2.2.2.2; omega

theorem find_lt {m : Mux} {id i : Nat} (h : m.find id = some i) : i < m.chans.length := by
  rw [Mux.find, List.findIdx?_eq_some_iff_getElem] at h
  exact h.1

/-- A new channel at the end. -/
theorem Shr.append {m m' : Mux} {c : Chan} (hc : m'.chans = m.chans ++ [c]) (h1 : c.rd.len = 0)
    (h2 : c.rd.data.length = m.maxRead) (hm : m'.maxRead = m.maxRead)
    (hcu : m'.curr = m.curr ∨ m'.curr = none ∨ ∃ i, m'.curr = some i ∧ i < m'.chans.length)
    (ha : m'.Active → m.Active ∧ m'.curr = m.curr ∧ m'.dataPos = m.dataPos ∧ m'.dataSize = m.dataSize) : Shr m m' := by
  refine ⟨by rw [hc]; simp, ?_, hm, ha, hcu⟩
  intro i d hd
  rw [hc] at hd
  rcases Nat.lt_trichotomy i m.chans.length with hl | hl | hl
  · rw [List.getElem?_append_left hl] at hd
    exact Or.inl ⟨d, hd, Nat.le_refl _, rfl⟩
  · subst hl
    simp at hd
    rw [← hd]
    exact Or.inr ⟨Nat.le_refl _, h1, h2⟩
  · rw [List.getElem?_eq_none (by simp; omega)] at hd; cases hd

theorem Shr.onNew {m m' : Mux} {env : Env} (hin : m.inHdr = true) (e : m.onNew env = some m') : Shr m m' := by
  rw [Mux.onNew] at e
  split at e
  · split at e
    · cases e
    · rename_i i hi
      split at e
      · cases e
      · rename_i c hc
        have hl := lt_of_get hc
        split at e
        · rw [← Option.some.inj e]
          refine .setThen (c' := { c with state := .pendingOpen, window := rd32 m.hdr 4 }) hc (Nat.le_refl _) rfl ?_
          refine ⟨Nat.le_refl _, fun j d hd => Or.inl ⟨d, hd, Nat.le_refl _, rfl⟩, rfl, fun h => absurd rfl h.1, ?_⟩
          exact Or.inr (Or.inr ⟨i, rfl, by simp [Mux.set, Mux.proto, hl]⟩)
        · rw [← Option.some.inj e]
          refine .setThen (c' := { c with state := .pendingOpen, window := rd32 m.hdr 4 }) hc (Nat.le_refl _) rfl ?_
          refine .setThen (c' := { c with state := .pendingOpen, window := rd32 m.hdr 4, remoteId := rd16 m.hdr 2 }) (i := i)
            (c := { c with state := .pendingOpen, window := rd32 m.hdr 4 }) (by simp [Mux.set, hl]) (Nat.le_refl _) rfl ?_
          refine ⟨Nat.le_refl _, fun j d hd => Or.inl ⟨d, hd, Nat.le_refl _, rfl⟩, rfl, idle_pos (by simp), ?_⟩
          exact Or.inr (Or.inr ⟨i, rfl, by simp [Mux.set, hl]⟩)
  · split at e
    · rw [← Option.some.inj e]; exact .proto m
    · split at e
      · rw [← Option.some.inj e]; exact .same rfl rfl (Or.inr rfl) (idle_of hin)
      · simp only at e
        split at e
        · rw [← Option.some.inj e]
          exact .append rfl rfl (by simp [Mux.newChan]) rfl (Or.inr (Or.inl rfl)) (fun h => absurd rfl h.1)
        · rw [← Option.some.inj e]
          exact .append rfl rfl (by simp [Mux.newChan]) rfl
            (Or.inr (Or.inr ⟨m.chans.length, rfl, by simp⟩)) (idle_pos (by simp))

theorem Shr.onInit {m m' : Mux} (hin : m.inHdr = true) (e : m.onInit = some m') : Shr m m' := by
  rw [Mux.onInit] at e
  split at e
  · rw [← Option.some.inj e]; exact .proto m
  · split at e
    · rw [← Option.some.inj e]; exact .same rfl rfl (Or.inl rfl) (idle_of hin)
    · exact .after (.nextReq e) (.same rfl rfl (Or.inl rfl) (idle_of hin))

theorem Shr.onRsp {m m' : Mux} (hin : m.inHdr = true) (e : m.onRsp = some m') : Shr m m' := by
  rw [Mux.onRsp] at e
  split at e
  · rw [← Option.some.inj e]; exact .proto m
  · rename_i i hi
    split at e
    · cases e
    · rename_i c hc
      have q : ∀ {a b : Mux}, b.inHdr = true → b.chans = a.chans → b.maxRead = a.maxRead → b.curr = a.curr → Shr a b :=
        fun h1 h2 h3 h4 => .same h2 h3 (Or.inl h4) (idle_of h1)
      have w : ∀ {c' : Chan}, c'.rd = c.rd → Shr m (m.set i c') := fun h => .set hc (by rw [h]; exact Nat.le_refl _) (by rw [h])
      split at e
      · rw [← Option.some.inj e]; exact .proto m
      · split at e
        · rw [← Option.some.inj e]; exact .proto m
        · simp only at e
          split at e
          · rw [← Option.some.inj e]
            exact (w (c' := { c with remoteId := rd16 m.hdr 8, window := rd32 m.hdr 4 }) rfl).trans (q hin rfl rfl rfl)
          · split at e
            · cases e
            · split at e
              · refine .after (.nextReq e) ?_
                exact (w (c' := { c with remoteId := rd16 m.hdr 8, window := rd32 m.hdr 4, err := rd16 m.hdr 10, state := .closed })
                  rfl).trans (q hin rfl rfl rfl)
              · split at e
                · split at e
                  · cases e
                  · rename_i m2 ha
                    refine .after (.trans (.addWr ha) (.nextReq e)) ?_
                    exact (w (c' := { c with remoteId := rd16 m.hdr 8, window := rd32 m.hdr 4, err := 0, state := .inClose
                                             sendClose := true }) rfl).trans (q hin rfl rfl rfl)
                · refine .after (.nextReq e) ?_
                  exact (w (c' := { c with remoteId := rd16 m.hdr 8, window := rd32 m.hdr 4, err := 0, state := .opened })
                    rfl).trans (q hin rfl rfl rfl)

theorem Shr.onClose {m m' : Mux} (e : m.onClose = some m') : Shr m m' := by
  rw [Mux.onClose] at e
  split at e
  · rw [← Option.some.inj e]; exact .proto m
  · split at e
    · cases e
    · rename_i c hc
      split at e
      · rw [← Option.some.inj e]; exact .proto m
      · simp only at e
        split at e
        · rw [← Option.some.inj e]; exact .set hc (Nat.le_refl _) rfl
        · exact .after (.addWr e) (.set hc (Nat.le_refl _) rfl)

theorem Shr.onData {m m' : Mux} (e : m.onData = some m') : Shr m m' := by
  rw [Mux.onData] at e
  split at e
  · rw [← Option.some.inj e]; exact .proto m
  · rename_i i hi
    split at e
    · cases e
    · rename_i c hc
      have hl := lt_of_get hc
      split at e
      · rw [← Option.some.inj e]; exact .proto m
      · simp only at e
        split at e
        · rw [← Option.some.inj e]; exact .proto m
        · have h0 : Shr m { m.set i { c with sentUnacked := c.sentUnacked - rd32 m.hdr 4 } with
                     curr := some i, dataPos := 0, inHdr := false } := by
            refine .setThen (c' := { c with sentUnacked := c.sentUnacked - rd32 m.hdr 4 }) hc (Nat.le_refl _) rfl ?_
            refine ⟨Nat.le_refl _, fun j d hd => Or.inl ⟨d, hd, Nat.le_refl _, rfl⟩, rfl, idle_pos (by simp), ?_⟩
            exact Or.inr (Or.inr ⟨i, rfl, by simp [Mux.set, hl]⟩)
          split at e
          · exact h0.trans (.addWr e)
          · rw [← Option.some.inj e]; exact h0

theorem Shr.onHdr {m m' : Mux} {env : Env} (hin : m.inHdr = true) (e : m.onHdr env = some m') : Shr m m' := by
  rw [Mux.onHdr] at e
  simp only at e
  have h0 : Shr m { m with hdrPos := 0 } := .same rfl rfl (Or.inl rfl) (idle_of hin)
  refine h0.trans ?_
  split at e
  · exact .onInit hin e
  · split at e
    · rw [← Option.some.inj e]; exact .same rfl rfl (Or.inl rfl) (fun h => absurd rfl h.1)
    · split at e
      · exact .onNew hin e
      · split at e
        · exact .onRsp hin e
        · split at e
          · exact .onClose e
          · split at e
            · exact .onData e
            · cases e

theorem Shr.rxHdr {m m' : Mux} {b : UInt8} {env : Env} (hin : m.inHdr = true) (e : m.rxHdr b env = some m') : Shr m m' := by
  rw [Mux.rxHdr] at e
  split at e
  · simp only at e
    split at e
    · rw [← Option.some.inj e]; exact .same rfl rfl (Or.inl rfl) (idle_of hin)
    · split at e
      · rw [← Option.some.inj e]; exact .same rfl rfl (Or.inl rfl) (idle_of hin)
      · split at e
        · rw [← Option.some.inj e]; exact .same rfl rfl (Or.inl rfl) (idle_of hin)
        · rw [← Option.some.inj e]; exact .same rfl rfl (Or.inl rfl) (idle_of hin)
  · split at e
    · rw [← Option.some.inj e]; exact .same rfl rfl (Or.inl rfl) (idle_of hin)
    · exact .after (Shr.onHdr (m := { m with hdr := m.hdr.set m.hdrPos b }) hin e)
        (.same rfl rfl (Or.inl rfl) (idle_of hin))

theorem Shr.newDone {m m' : Mux} {i : Nat} {c : Chan} {env : Env} (hc : m.chans[i]? = some c)
    (e : m.newDone i c env = some m') : Shr m m' := by
  rw [Mux.newDone] at e
  split at e
  · rw [← Option.some.inj e]
    exact .setThen (c' := { c with state := .opened }) hc (Nat.le_refl _) rfl (.same rfl rfl (Or.inl rfl) (idle_of rfl))
  · split at e
    · rw [← Option.some.inj e]
      exact .setThen (c' := { c with state := .opened, linked := false }) hc (Nat.le_refl _) rfl
        (.same rfl rfl (Or.inr rfl) (fun h => absurd rfl h.1))
    · split at e
      · rw [← Option.some.inj e]
        exact .setThen (c' := { c with state := .closed }) hc (Nat.le_refl _) rfl (.same rfl rfl (Or.inl rfl) (idle_of rfl))
      · split at e
        · split at e
          · cases e
          · rename_i m2 ha
            rw [← Option.some.inj e]
            refine .trans (.setThen (c' := { c with state := .opened, recvUnacked := c.service.length }) hc (Nat.le_refl _) rfl
              (.trans ?_ (.addWr ha))) (.same rfl rfl (Or.inl rfl) (idle_of rfl))
            exact .same rfl rfl (Or.inl rfl) (fun h => ⟨h, rfl, rfl, rfl⟩)
        · rw [← Option.some.inj e]
          exact .setThen (c' := { c with state := .opened }) hc (Nat.le_refl _) rfl (.same rfl rfl (Or.inl rfl) (idle_of rfl))

/-- The end of a message: the buffers only have to fit. -/
theorem Fits.dataDone {R : Nat} {m m' : Mux} {i : Nat} {env : Env}
    (h1 : ∀ (i : Nat) (c : Chan), m.chans[i]? = some c → c.rd.data.length = m.maxRead ∧ c.rd.len ≤ m.maxRead)
    (h2 : ∀ i, m.curr = some i → i < m.chans.length) (h3 : m.maxRead = R)
    (e : m.dataDone i env = some m') : Fits R m' := by
  rw [Mux.dataDone] at e
  split at e
  · cases e
  · rename_i m2 hr
    rw [← Option.some.inj e]
    have hs : Shr m m2 := by
      split at hr
      · exact .checkRead hr
      · rw [← Option.some.inj hr]; exact .refl m
    have h0 : Fits R { m with inHdr := true } := ⟨h1, fun ha => (by have := ha.2.2.1; cases this), h2, h3⟩
    refine h0.shr ⟨hs.len, hs.old, hs.maxRead, idle_of rfl, hs.curr⟩

theorem add_len {r r' : Ring} {d : List UInt8} (e : r.add d = some r') :
    r'.len = r.len + d.length ∧ r'.data.length = r.data.length := by
  have hb : ∀ {buf o : List UInt8} {off : Nat} {d : List UInt8}, blit buf off d = some o → o.length = buf.length := by
    intro buf o off d h
    rw [blit] at h
    split at h
    · rw [← Option.some.inj h]; simp; omega
    · cases h
  rw [Ring.add] at e
  simp only at e
  generalize (if r.pos + r.len ≥ r.data.length then r.pos + r.len - r.data.length else r.pos + r.len) = epos at e
  split at e
  · split at e
    · cases e
    · rename_i d1 h1
      split at e
      · cases e
      · rename_i d2 h2
        rw [← Option.some.inj e]
        exact ⟨rfl, by show d2.length = _; rw [hb h2, hb h1]⟩
  · split at e
    · cases e
    · rename_i d1 h1
      rw [← Option.some.inj e]
      exact ⟨rfl, by show d1.length = _; rw [hb h1]⟩

theorem Fits.rxLen {R : Nat} {m m' : Mux} {b : UInt8} {env : Env} (h : Fits R m) (e : m.rxLen b env = some m') : Fits R m' := by
  rw [Mux.rxLen] at e
  simp only at e
  split at e
  · cases e
  · rename_i i hi
    split at e
    · cases e
    · rename_i c hc
      have hz := h.size i c hc
      split at e
      · rename_i h2
        have hne : ∀ {a : Mux}, a.msgid = 2 → ¬ a.Active := fun ha hx => (by have := hx.2.2.2.1; omega)
        have h0 : Fits R ({ m.set i { c with service := [] } with dataSize := m.dataSize + b.toNat, dataPos := 2 }) :=
          h.shr (.setThen (c' := { c with service := [] }) hc (Nat.le_refl _) rfl
            (.same rfl rfl (Or.inl rfl) (fun hx => absurd hx (hne h2))))
        split at e
        · exact h0.shr (.newDone (by show (m.set i _).chans[i]? = _; simp [Mux.set, lt_of_get hc]) e)
        · rw [← Option.some.inj e]; exact h0
      · split at e
        · rename_i hm
          split at e
          · exact Fits.dataDone (m := { m with dataSize := m.dataSize + b.toNat, dataPos := 2 }) (fun j d hd => h.size j d hd) h.curr
              h.mx e
          · split at e
            · rw [← Option.some.inj e]
              exact ⟨h.size, fun ha => absurd rfl ha.1, h.curr, h.mx⟩
            · rename_i hroom
              split at e
              · cases e
              · rename_i r hr
                obtain ⟨l1, l2⟩ := add_len hr
                have l3 : (m.hdr.getD 1 0 :: be16 (m.dataSize + b.toNat)).length = 3 := rfl
                rw [← Option.some.inj e]
                have key : ∀ m2 : Mux, m2.chans = m.chans.set i { c with rd := r, rcv := c.rcv ++ [(m.hdr.getD 1 0, [])] } →
                    m2.maxRead = m.maxRead → m2.curr = m.curr → m2.dataSize = m.dataSize + b.toNat → m2.dataPos = 2 →
                    Fits R m2 := by
                  intro m2 k1 k2 k3 k4 k5
                  refine ⟨?_, ?_, ?_, by rw [k2]; exact h.mx⟩
                  · intro j d hd
                    rw [k1, set_get hc] at hd
                    rw [k2]
                    split at hd
                    · rw [← Option.some.inj hd]; show r.data.length = _ ∧ r.len ≤ _; omega
                    · exact h.size j d hd
                  · intro _ j d hj hd
                    rw [k3, hi] at hj
                    rw [k1, set_get hc, if_pos (Option.some.inj hj).symm] at hd
                    rw [k2, k4, k5, ← Option.some.inj hd]
                    show _ ∧ r.len + _ ≤ _
                    omega
                  · intro j hj; rw [k1]; rw [k3] at hj; simpa using h.curr j hj
                exact key _ rfl rfl rfl rfl rfl
        · cases e

theorem Fits.rxBody {R : Nat} {m m' : Mux} {b : UInt8} {env : Env} (h : Fits R m) (hst : m.state ≠ .inClose ∧ m.state ≠ .closed)
    (hin : m.inHdr = false) (hp : 2 ≤ m.dataPos) (e : m.rxBody b env = some m') : Fits R m' := by
  rw [Mux.rxBody] at e
  split at e
  · cases e
  · rename_i i hi
    split at e
    · cases e
    · rename_i c hc
      split at e
      · rename_i h2
        have hne : ∀ {a : Mux}, a.msgid = 2 → ¬ a.Active := fun ha hx => (by have := hx.2.2.2.1; omega)
        split at e
        · cases e
        · simp only at e
          have h1 : Shr m (m.set i { c with service := c.service ++ [b] }) := .set hc (Nat.le_refl _) rfl
          split at e
          · rw [← Option.some.inj e]
            exact h.shr (h1.trans (.same rfl rfl (Or.inl rfl) (fun hx => absurd hx (hne h2))))
          · exact (h.shr h1).shr (.newDone (by simp [Mux.set, lt_of_get hc]) e)
      · split at e
        · rename_i hm
          obtain ⟨r1, r2⟩ := h.room ⟨hst.1, hst.2, hin, hm, hp⟩ i c hi hc
          have hz := h.size i c hc
          split at e
          · cases e
          · rename_i r hr
            obtain ⟨l1, l2⟩ := add_len hr
            simp only [List.length_cons, List.length_nil] at l1
            simp only at e
            have hsz : ∀ (j : Nat) (d : Chan), (m.set i { c with rd := r, rcv := addLast c.rcv b }).chans[j]? = some d →
                d.rd.data.length = m.maxRead ∧ d.rd.len ≤ m.maxRead := by
              intro j d hd
              rw [show (m.set i { c with rd := r, rcv := addLast c.rcv b }).chans[j]? = _ from set_get hc] at hd
              split at hd
              · rw [← Option.some.inj hd]; show r.data.length = _ ∧ r.len ≤ _; omega
              · exact h.size j d hd
            have hcu : ∀ j, m.curr = some j → j < (m.set i { c with rd := r, rcv := addLast c.rcv b }).chans.length := by
              intro j hj; simpa [Mux.set] using h.curr j hj
            split at e
            · rename_i hlt
              rw [← Option.some.inj e]
              refine ⟨hsz, ?_, hcu, h.mx⟩
              intro _ j d hj hd
              have hj : m.curr = some j := hj
              rw [hi] at hj
              have hd : (m.set i { c with rd := r, rcv := addLast c.rcv b }).chans[j]? = some d := hd
              rw [show (m.set i { c with rd := r, rcv := addLast c.rcv b }).chans[j]? = _ from set_get hc,
                if_pos (Option.some.inj hj).symm] at hd
              rw [← Option.some.inj hd]
              show m.dataPos + 1 < m.dataSize + 2 ∧ r.len + (m.dataSize + 2 - (m.dataPos + 1)) ≤ m.maxRead
              omega
            · exact Fits.dataDone (m := m.set i { c with rd := r, rcv := addLast c.rcv b }) hsz hcu h.mx e
        · cases e

theorem Fits.rxByte {R : Nat} {m m' : Mux} {b : UInt8} {env : Env} (h : Fits R m) (e : m.rxByte b env = some m') : Fits R m' := by
  rw [Mux.rxByte] at e
  split at e
  · rename_i hs
    rw [← Option.some.inj e]
    exact h.shr (.same rfl rfl (Or.inl rfl) (fun hx => ⟨hx, rfl, rfl, rfl⟩))
  · rename_i hs
    rw [not_or] at hs
    split at e
    · rename_i hin; exact h.shr (.rxHdr hin e)
    · rename_i hin
      split at e
      · rw [← Option.some.inj e]
        exact h.shr (.same rfl rfl (Or.inl rfl) (idle_pos (by simp)))
      · split at e
        · exact h.rxLen e
        · exact h.rxBody hs (by simpa using hin) (by omega) e

theorem Shr.openFirst {m m' : Mux} {i : Nat} (e : m.openFirst i = some m') : Shr m m' := by
  rw [Mux.openFirst] at e
  split at e
  · cases e
  · rename_i c hc
    simp only at e
    split at e
    · rw [← Option.some.inj e]
      exact .setThen (c' := { c.reinit with sendNew := true, state := .inOpen, inOpenChan := true }) hc (Nat.zero_le _) rfl
        (.same rfl rfl (Or.inl rfl) (idle_of rfl))
    · rw [← Option.some.inj e]
      exact .setThen (c' := { c.reinit with state := .inOpen }) hc (Nat.zero_le _) rfl
        (.same rfl rfl (Or.inl rfl) (idle_of rfl))

theorem Shr.openChan {m m' : Mux} {i : Nat} (e : m.openChan i = some m') : Shr m m' := by
  rw [Mux.openChan] at e
  split at e
  · cases e
  · rename_i c hc
    split at e
    · rw [← Option.some.inj e]; exact .refl m
    · simp only at e
      split at e
      · refine .after (.addWr e) ?_
        exact .setThen (c' := { c.reinit with sendNew := true, state := .inOpen }) hc (Nat.zero_le _) rfl
          (.same rfl rfl (Or.inl rfl) (fun h => ⟨h, rfl, rfl, rfl⟩))
      · rw [← Option.some.inj e]
        exact .setThen (c' := { c.reinit with sendNew := true, state := .inOpen, inOpenChan := true }) hc (Nat.zero_le _) rfl
          (.same rfl rfl (Or.inl rfl) (fun h => ⟨h, rfl, rfl, rfl⟩))

theorem Fits.step {R : Nat} {m m' : Mux} {op : Op} (h : Fits R m) (e : m.step op = some m') : Fits R m' := by
  cases op with
  | alloc id service =>
    simp only [Mux.step, Mux.alloc] at e
    rw [← Option.some.inj e]
    split
    · exact h
    · exact h.shr (.append rfl rfl (by simp [Mux.newChan]) rfl (Or.inl rfl) (fun h => ⟨h, rfl, rfl, rfl⟩))
  | opn i =>
    simp only [Mux.step, Mux.open] at e
    split at e
    · exact h.shr (.openFirst e)
    · exact h.shr (.openChan e)
  | write i sg eom oob =>
    simp only [Mux.step] at e
    split at e
    · cases e
    · rename_i m2 r hw
      have e := Option.some.inj e
      subst e
      rw [Mux.write] at hw
      split at hw
      · cases hw
      · rename_i c hc
        have id : ∀ {x : WrRes}, some (m, x) = some (m2, r) → Fits R m2 := fun e => by
          have := congrArg Prod.fst (Option.some.inj e); simp only at this; rw [← this]; exact h
        split at hw
        · exact id hw
        · split at hw
          · exact id hw
          · split at hw
            · exact id hw
            · split at hw
              · exact id hw
              · split at hw
                · cases hw
                · rename_i m3 hq
                  have := congrArg Prod.fst (Option.some.inj hw); simp only at this; rw [← this]
                  rw [Mux.queue] at hq
                  split at hq
                  · cases hq
                  · split at hq
                    · cases hq
                    · exact h.shr (.after (.addWr hq) (.set hc (Nat.le_refl _) rfl))
  | close i =>
    simp only [Mux.step, Mux.close] at e
    split at e
    · cases e
    · rename_i c hc
      split at e
      · rw [← Option.some.inj e]; exact h
      · split at e
        · rw [← Option.some.inj e]; exact h.shr (.set hc (Nat.le_refl _) rfl)
        · rw [← Option.some.inj e]; exact h.shr (.set hc (Nat.le_refl _) rfl)
        · exact h.shr (.after (.addWr e) (.set hc (Nat.le_refl _) rfl))
        · rw [← Option.some.inj e]; exact h.shr (.set hc (Nat.le_refl _) rfl)
  | readEnable i en =>
    simp only [Mux.step, Mux.readEnable] at e
    split at e
    · cases e
    · rename_i c hc
      rw [← Option.some.inj e]; exact h.shr (.set hc (Nat.le_refl _) rfl)
  | oob i en =>
    simp only [Mux.step, Mux.setOob] at e
    split at e
    · cases e
    · rename_i c hc
      rw [← Option.some.inj e]; exact h.shr (.set hc (Nat.le_refl _) rfl)
  | deferred i ans =>
    simp only [Mux.step, Mux.deferred] at e
    split at e
    · cases e
    · rename_i m2 hr
      have h2 := h.shr (.checkRead hr)
      split at e
      · cases e
      · rename_i c hc
        split at e
        · split at e
          · cases e
          · rw [← Option.some.inj e]
            have h3 : Shr m2 { m2.set i { c with state := .closed } with nrNotClosed := m2.nrNotClosed - 1 } :=
              .setThen (c' := { c with state := .closed }) hc (Nat.le_refl _) rfl
                (.same rfl rfl (Or.inl rfl) (fun h => ⟨h, rfl, rfl, rfl⟩))
            split
            · exact (h2.shr h3).shr (.same rfl rfl (Or.inl rfl) (fun h => absurd rfl h.1))
            · exact h2.shr h3
        · rw [← Option.some.inj e]; exact h2
  | writeReady ans =>
    simp only [Mux.step, Mux.writeReady] at e
    split at e
    · rw [← Option.some.inj e]
      exact h.shr (.same rfl rfl (Or.inl rfl) (fun h => ⟨h, rfl, rfl, rfl⟩))
    · exact h.shr (.flush _ _ e)
  | recv b env => exact h.rxByte e

theorem Fits.run {R : Nat} {m' : Mux} (ops : List Op) : ∀ m : Mux, Fits R m → m.run ops = some m' → Fits R m' := by
  induction ops with
  | nil => intro m h e; rw [Mux.run] at e; rw [← Option.some.inj e]; exact h
  | cons op ops ih =>
    intro m h e
    rw [Mux.run] at e
    split at e
    · cases e
    · rename_i m2 h2
      exact ih _ (h.step h2) e

theorem Fits.start (isClient : Bool) (maxRead maxWrite : Nat) : Fits maxRead (Mux.start isClient maxRead maxWrite) := by
  refine ⟨?_, ?_, ?_, rfl⟩ <;> simp [Mux.start]

/-! ## The theorems -/

/-- C73: whatever the other end sends and the user does, no receive buffer ever holds more bytes than its size. -/
theorem C73_buffer (isClient : Bool) (maxRead maxWrite : Nat) (ops : List Op) (m : Mux)
    (h : (Mux.start isClient maxRead maxWrite).run ops = some m) (c : Chan) (hc : c ∈ m.chans) :
    c.rd.data.length = maxRead ∧ c.rd.len ≤ maxRead := by
  obtain ⟨i, hi⟩ := List.getElem?_of_mem hc
  have hf := (Fits.start isClient maxRead maxWrite).run ops _ h
  have := hf.size i c hi
  rw [hf.mx] at this
  exact this

/-- C73: when the length of a data message arrives, the message is taken if it fits the free part of the buffer together
with the three bytes kept for it, and otherwise the connection is given up and nothing is stored. -/
theorem C73_length (isClient : Bool) (maxRead maxWrite : Nat) (ops : List Op) (m : Mux)
    (h : (Mux.start isClient maxRead maxWrite).run ops = some m) (b : UInt8) (env : Env) (m' : Mux) (i : Nat) (c : Chan)
    (hs : m.state ≠ .inClose) (hs2 : m.state ≠ .closed) (hin : m.inHdr = false) (hid : m.msgid = 5) (hp : m.dataPos = 1)
    (hn : m.dataSize + b.toNat ≠ 0) (hi : m.curr = some i) (hc : m.chans[i]? = some c)
    (e : m.step (.recv b env) = some m') :
    (m.dataSize + b.toNat + 3 + c.rd.len ≤ maxRead → m'.state = m.state ∧ ∃ c', m'.chans[i]? = some c'
      ∧ c'.rd.len = c.rd.len + 3 ∧ c'.rcv = c.rcv ++ [(m.hdr.getD 1 0, [])])
    ∧ (maxRead < m.dataSize + b.toNat + 3 + c.rd.len → m'.state = .inClose ∧ m'.chans = m.chans) := by
  have hf := (Fits.start isClient maxRead maxWrite).run ops _ h
  have hz := hf.size i c hc
  rw [hf.mx] at hz
  simp only [Mux.step, Mux.rxByte] at e
  rw [if_neg (by simp [hs, hs2]), if_neg (by simp [hin]), if_neg (by omega), if_pos hp, Mux.rxLen] at e
  simp only [hi, hc, hid] at e
  rw [if_neg (by omega), if_pos trivial, if_neg hn] at e
  constructor
  · intro hle
    rw [if_neg (by omega)] at e
    split at e
    · cases e
    · rename_i r hr
      rw [← Option.some.inj e]
      refine ⟨rfl, { c with rd := r, rcv := c.rcv ++ [(m.hdr.getD 1 0, [])] }, ?_, (add_len hr).1, rfl⟩
      show (m.chans.set i _)[i]? = _
      simp [lt_of_get hc]
  · intro hlt
    rw [if_pos (by omega)] at e
    rw [← Option.some.inj e]
    exact ⟨rfl, rfl⟩

/-- A channel whose number at the other end is in use. -/
def UsesRemote (m : Mux) (r : Nat) : Prop :=
  ∃ c ∈ m.chans, c.linked = true ∧ c.remoteId = r ∧ c.state ≠ .pendingOpen ∧ c.state ≠ .inOpen ∧ c.state ≠ .inOpenClose
    ∧ c.state ≠ .inCloseFinal

/-- C73: the last byte of the header of a request for a new channel.  The connection is given up if the number at the other
end is in use; otherwise, with a number left for the channel and a window over 128, a channel with that number is made. -/
theorem C73_new (m : Mux) (b : UInt8) (env : Env) (m' : Mux) (hin : m.inHdr = true) (h0 : m.hdrPos ≠ 0)
    (h1 : m.hdrSize ≤ 1 + m.hdrPos) (hid : m.msgid = 2) (hs : m.state = .opened ∨ m.state = .inOpen)
    (e : m.step (.recv b env) = some m') :
    (UsesRemote m (rd16 (m.hdr.set m.hdrPos b) 2) → m'.state = .inClose ∧ m'.chans = m.chans)
    ∧ (¬ UsesRemote m (rd16 (m.hdr.set m.hdrPos b) 2) → ∀ id, env.newId = some id → 128 < rd32 (m.hdr.set m.hdrPos b) 4 →
      m'.state = m.state ∧ ∃ c, m'.chans = m.chans ++ [c] ∧ c.id = id ∧ c.remoteId = rd16 (m.hdr.set m.hdrPos b) 2
        ∧ c.window = rd32 (m.hdr.set m.hdrPos b) 4 ∧ c.state = .pendingOpen ∧ c.linked = true) := by
  have hu : ∀ r, m.hasRemote r = true ↔ UsesRemote m r := by
    intro r
    simp only [Mux.hasRemote, List.any_eq_true, UsesRemote, Bool.and_eq_true, decide_eq_true_eq, beq_iff_eq, and_assoc]
  have hs1 : m.state ≠ .inClose ∧ m.state ≠ .closed ∧ m.state ≠ .uninit ∧ m.state ≠ .waitOpen := by
    rcases hs with h | h <;> rw [h] <;> decide
  simp only [Mux.step, Mux.rxByte] at e
  rw [if_neg (by simp [hs1]), if_pos hin, Mux.rxHdr, if_neg h0, if_neg (by omega), Mux.onHdr] at e
  simp only [hid] at e
  rw [if_neg (by decide), if_neg hs1.2.2.1, if_pos trivial, Mux.onNew] at e
  simp only at e
  rw [if_neg hs1.2.2.2] at e
  constructor
  · intro hr
    split at e
    · rw [← Option.some.inj e]
      exact ⟨rfl, rfl⟩
    · rename_i hx; exact absurd ((hu _).mpr hr) hx
  · intro hr id hi hw
    split at e
    · rename_i hx; exact absurd ((hu _).mp hx) hr
    · simp only [hi] at e
      rw [if_neg (by omega)] at e
      rw [← Option.some.inj e]
      exact ⟨rfl, _, rfl, rfl, rfl, rfl, rfl, rfl⟩

/-- The first channel is open, with a receive buffer of 132 bytes and number 7 at the other end. -/
example : ((Mux.start true 132 32).run (opening ++ arrive [0x52, 1, 0, 0, 0, 0, 0, 0, 0, 129])).map
    (fun m => (m.state, m.chans.map (·.rd.len))) = some (.opened, [3]) := by decide +kernel
example : ((Mux.start true 132 32).run (opening ++ arrive [0x52, 1, 0, 0, 0, 0, 0, 0, 0, 130])).map
    (fun m => (m.state, m.chans.map (·.rd.len))) = some (.inClose, [0]) := by decide +kernel
example : ((Mux.start true 132 32).run (opening ++ arrive [0x52, 1, 0, 0, 0, 0, 0, 0, 0, 5, 1, 2, 3, 4, 5]
    ++ arrive [0x52, 1, 0, 0, 0, 0, 0, 0, 0, 122])).map
    (fun m => (m.state, m.chans.map (·.rd.len))) = some (.inClose, [8]) := by decide +kernel
/-- Number 7 is in use, number 8 is not. -/
example : ((Mux.start true 132 32).run (opening ++ ([0x22, 0, 0, 7, 0, 0, 0, 200] : List UInt8).map (fun b => Op.recv b
    { newId := some 1 }))).map (fun m => (m.state, m.chans.map (fun c => (c.id, c.remoteId)))) = some (.inClose, [(0, 7)]) := by
  decide +kernel
example : ((Mux.start true 132 32).run (opening ++ ([0x22, 0, 0, 8, 0, 0, 0, 200] : List UInt8).map (fun b => Op.recv b
    { newId := some 1 }))).map (fun m => (m.state, m.chans.map (fun c => (c.id, c.remoteId))))
      = some (.opened, [(0, 7), (1, 8)]) := by
  decide +kernel

end Gensio.Mux
