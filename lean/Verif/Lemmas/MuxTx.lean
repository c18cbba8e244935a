import Verif.Lemmas.Mux

/-!
# Lemmas about a mux channel that writes and sends
-/

namespace Gensio.Mux

/-! ## Writing -/

theorem room_spec {c : Chan} {tot t : Nat} {tr : Bool} (h : room c tot = some (t, tr)) (ht : 4 ≤ tot) :
    4 ≤ t ∧ t ≤ tot ∧ t ≤ c.wr.data.length - c.wr.len ∧ t ≤ c.window / 2 ∧ (tr = true ↔ t < tot) := by
  rw [room] at h
  by_cases h1 : c.wr.data.length - c.wr.len < 4
  · rw [if_pos h1] at h; cases h
  · rw [if_neg h1] at h
    by_cases h2 : tot > c.wr.data.length - c.wr.len
    · simp only [if_pos h2] at h
      by_cases h3 : c.wr.data.length - c.wr.len > c.window / 2
      · rw [if_pos h3] at h
        by_cases h4 : c.window / 2 ≤ 3
        · rw [if_pos h4] at h; cases h
        · rw [if_neg h4] at h
          simp only [Option.some.injEq, Prod.mk.injEq] at h
          obtain ⟨rfl, rfl⟩ := h
          simp only [true_iff]
          omega
      · rw [if_neg h3] at h
        simp only [Option.some.injEq, Prod.mk.injEq] at h
        obtain ⟨rfl, rfl⟩ := h
        simp only [true_iff]
        omega
    · simp only [if_neg h2] at h
      by_cases h3 : tot > c.window / 2
      · rw [if_pos h3] at h
        by_cases h4 : c.window / 2 ≤ 3
        · rw [if_pos h4] at h; cases h
        · rw [if_neg h4] at h
          simp only [Option.some.injEq, Prod.mk.injEq] at h
          obtain ⟨rfl, rfl⟩ := h
          simp only [true_iff]
          omega
      · rw [if_neg h3] at h
        simp only [Option.some.injEq, Prod.mk.injEq] at h
        obtain ⟨rfl, rfl⟩ := h
        simp only [Bool.false_eq_true, false_iff]
        omega

theorem addSg_spec : ∀ (sg : List (List UInt8)) (r : Ring) (l : List UInt8) (left : Nat), Holds r l →
    l.length + left ≤ r.data.length →
    ∃ r', addSg r sg left = some r' ∧ Holds r' (l ++ sg.flatten.take left) ∧ r'.pos = r.pos
      ∧ r'.data.length = r.data.length
  | [], r, l, left, h, _ => ⟨r, rfl, by simpa using h, rfl, rfl⟩
  | b :: sg, r, l, left, h, hf => by
    by_cases h0 : left = 0
    · refine ⟨r, by rw [addSg, if_pos h0], ?_, rfl, rfl⟩
      subst h0
      simpa using h
    · obtain ⟨r1, e1, h1, p1, l1⟩ := h.add (d := b.take left) (by simp only [List.length_take]; omega)
      obtain ⟨r2, e2, h2, p2, l2⟩ := addSg_spec sg r1 _ (left - min b.length left) h1
        (by simp only [List.length_append, List.length_take]; omega)
      refine ⟨r2, by rw [addSg, if_neg h0]; simp only [e1]; exact e2, ?_, by omega, by omega⟩
      rw [List.flatten_cons, List.take_append, ← List.append_assoc]
      have : left - min b.length left = left - b.length := by omega
      rw [this] at h2
      exact h2

/-- A write puts exactly one message behind those that are waiting. -/
theorem ChanTx.queue {c : Chan} {q : List Frame} (h : ChanTx c q) {sg : List (List UInt8)} {t : Nat} {fl : UInt8}
    (h1 : 4 ≤ t) (h2 : t ≤ c.wr.data.length - c.wr.len) (h3 : t ≤ sg.flatten.length + 3) (h4 : t - 3 < 65536) :
    ∃ r1 r, c.wr.add (fl :: be16 (t - 3)) = some r1 ∧ addSg r1 sg (t - 3) = some r
      ∧ r.data.length = c.wr.data.length
      ∧ ChanTx { c with wr := r } (q ++ [(fl, sg.flatten.take (t - 3))])
      ∧ ({ c with wr := r } : Chan).pend = c.pend := by
  obtain ⟨x, hx, hh⟩ := h.ring
  have hlen := hh.len
  obtain ⟨r1, e1, k1, p1, l1⟩ := hh.add (d := fl :: be16 (t - 3))
    (by simp only [List.length_cons, be16_length]; omega)
  obtain ⟨r2, e2, k2, p2, l2⟩ := addSg_spec sg r1 _ (t - 3) k1
    (by rw [List.length_append]; simp only [List.length_cons, be16_length]; omega)
  have hfl : (sg.flatten.take (t - 3)).length = t - 3 := by rw [List.length_take]; omega
  have hn : Holds r2 (x ++ q.flatMap enc ++ enc (fl, sg.flatten.take (t - 3))) := by
    rw [enc, hfl, ← List.cons_append, ← List.append_assoc]
    exact k2
  obtain ⟨a1, a2⟩ := h.add (f := (fl, sg.flatten.take (t - 3))) ⟨by simp only [hfl]; omega, by simp only [hfl]; omega⟩
    hx hh hn (by omega) (by omega)
  exact ⟨r1, r2, e1, e2, by omega, a1, a2⟩

/-! ## Setting up messages -/

theorem ChanTx.setupNew {c : Chan} {q : List Frame} (h : ChanTx c q) (hs : c.sg = []) :
    ∃ c', c.setupNew = some c' ∧ ChanTx c' q ∧ c'.sg ≠ []
      ∧ c'.pend = (Msg.newChan c.id c.rd.data.length c.service).bytes
      ∧ c' = { c with hdr := c'.hdr, sg := c'.sg, sentUnacked := c'.sentUnacked, curLen := 0 } := by
  have hi := h.idle hs
  rw [Chan.setupNew, if_neg (by simp [hs])]
  refine ⟨_, rfl, ⟨⟨[], rfl, by simpa using hi⟩, h.ok, ?_, ?_, fun _ => rfl⟩, ?_, ?_, rfl⟩
  · intro off len hm
    simp only at hm
    split at hm <;> simp at hm
  · intro s hm
    simp only at hm
    split at hm
    · rw [List.mem_singleton.mp hm]
      exact ⟨by simp only [Chan.segBytes, Seg.len]; rfl, by simp [Seg.len]⟩
    · rename_i h0
      rcases List.mem_cons.mp hm with rfl | hm
      · exact ⟨by simp only [Chan.segBytes, Seg.len]; rfl, by simp [Seg.len]⟩
      · rw [List.mem_singleton.mp hm]
        exact ⟨by simp [Chan.segBytes, Seg.len], by simp only [Seg.len]; omega⟩
  · simp only; split <;> simp
  · simp only [Chan.pend]
    split
    · rename_i h0
      rw [List.length_eq_zero_iff.mp h0]
      rfl
    · simp [Chan.segBytes, Msg.bytes, be16, be32]

theorem ChanTx.setupClose {c : Chan} {q : List Frame} (h : ChanTx c q) (hs : c.sg = []) :
    ∃ c', c.setupClose = some c' ∧ ChanTx c' q ∧ c'.sg ≠ []
      ∧ c'.pend = (Msg.close c.remoteId (if c.err = geRemClose then 0 else c.err)).bytes
      ∧ c' = { c with hdr := c'.hdr, sg := c'.sg, curLen := 0 } := by
  have hi := h.idle hs
  rw [Chan.setupClose, if_neg (by simp [hs])]
  refine ⟨_, rfl, ⟨⟨[], rfl, by simpa using hi⟩, h.ok, ?_, ?_, fun _ => rfl⟩, ?_, ?_, rfl⟩
  · intro off len hm; simp at hm
  · intro s hm
    rw [List.mem_singleton.mp hm]
    exact ⟨by simp only [Chan.segBytes, Seg.len]; rfl, by simp [Seg.len]⟩
  · simp
  · rfl

/-- The three things `setupData` can do: nothing, set up an acknowledgement, or set up the first waiting message. -/
inductive Setup (c : Chan) (q : List Frame) : Chan → Bool → List Frame → Option Msg → Prop
  | nothing (c' : Chan) : c' = { c with hdr := c'.hdr } → c.recvUnacked = 0 →
      (∀ f q', q = f :: q' → f.2.length + 3 > c.windowLeft) → Setup c q c' false q none
  | ack (c' : Chan) : c' = { c with hdr := c'.hdr, recvUnacked := 0, sg := c'.sg } → c.recvUnacked ≠ 0 →
      (∀ f q', q = f :: q' → f.2.length + 3 > c.windowLeft) →
      Setup c q c' true q (some (.data c.remoteId c.recvUnacked 0 []))
  | msg (c' : Chan) (f : Frame) (q' : List Frame) : q = f :: q' → f.2.length + 3 ≤ c.windowLeft →
      c' = { c with hdr := c'.hdr, recvUnacked := 0, sg := c'.sg, wr := c'.wr, curLen := c'.curLen,
                    sentUnacked := c.sentUnacked + (f.2.length + 3) } →
      c'.wr.data = c.wr.data →
      Setup c q c' true q' (some (.data c.remoteId c.recvUnacked f.1 f.2))

theorem setupAck_spec {c : Chan} {q : List Frame} (h : ChanTx c q) (hs : c.sg = [])
    (hw : ∀ f q', q = f :: q' → f.2.length + 3 > c.windowLeft) :
    ∃ c' b o, c.setupAck ([0x52, 0] ++ be16 c.remoteId ++ be32 c.recvUnacked) = (c', b)
      ∧ Setup c q c' b q o ∧ ChanTx c' q
      ∧ (b = false → c'.sg = []) ∧ (b = true → c'.sg ≠ [] ∧ ∃ m, o = some m ∧ m.Ok ∧ c'.pend = m.bytes) := by
  have hi := h.idle hs
  have hc := h.cur hs
  rw [Chan.setupAck]
  by_cases h0 : c.recvUnacked = 0
  · rw [if_pos h0]
    refine ⟨_, _, _, rfl, .nothing _ rfl h0 hw, ⟨⟨[], hc.symm, by simpa using hi⟩, h.ok, ?_, ?_, h.cur⟩, fun _ => hs, ?_⟩
    · intro off len hm; simp [hs] at hm
    · intro s hm; simp [hs] at hm
    · intro hb; cases hb
  · rw [if_neg h0]
    refine ⟨_, _, _, rfl, .ack _ rfl h0 hw, ⟨⟨[], hc.symm, by simpa using hi⟩, h.ok, ?_, ?_, fun _ => hc⟩, ?_, ?_⟩
    · intro off len hm; simp at hm
    · intro s hm
      rw [List.mem_singleton.mp hm]
      exact ⟨by simp only [Chan.segBytes, Seg.len]; rfl, by simp [Seg.len]⟩
    · intro hb; cases hb
    · intro _
      refine ⟨by simp, _, rfl, by simp [Msg.Ok], ?_⟩
      rfl

theorem ChanTx.setupData {c : Chan} {q : List Frame} (h : ChanTx c q) (hs : c.sg = []) :
    ∃ c' b q' o, c.setupData = some (c', b) ∧ Setup c q c' b q' o ∧ ChanTx c' q'
      ∧ (b = false → c'.sg = []) ∧ (b = true → c'.sg ≠ [] ∧ ∃ m, o = some m ∧ m.Ok ∧ c'.pend = m.bytes) := by
  have hi := h.idle hs
  have hc := h.cur hs
  rw [Chan.setupData]
  simp only
  rw [if_neg (by simp [hs])]
  cases q with
  | nil =>
    rw [if_pos (by rw [hi.len]; rfl)]
    obtain ⟨c', b, o, e, a1, a2, a3, a4⟩ := setupAck_spec h hs (by intro f q' hq; cases hq)
    exact ⟨c', b, [], o, by rw [e], a1, a2, a3, a4⟩
  | cons f q =>
    have hf := h.ok f (List.mem_cons_self ..)
    have hlen := hi.len
    have hfit := hi.fit
    have hll : (List.flatMap enc (f :: q)).length = f.2.length + 3 + (q.flatMap enc).length := by
      rw [List.flatMap_cons, List.length_append, enc_length]
    have hcont : List.flatMap enc (f :: q)
        = f.1 :: UInt8.ofNat (f.2.length / 256) :: UInt8.ofNat f.2.length :: (f.2 ++ q.flatMap enc) := by
      rw [List.flatMap_cons, enc]
      simp [be16]
    rw [if_neg (by omega), if_neg (by have := hf.1; omega)]
    have g1 : c.wr.data.getD (c.wr.next 1) 0 = UInt8.ofNat (f.2.length / 256) := by
      rw [hi.getD (n := 1) (by omega)]; simp only [hcont]; rfl
    have g2 : c.wr.data.getD (c.wr.next 2) 0 = UInt8.ofNat f.2.length := by
      rw [hi.getD (n := 2) (by omega)]; simp only [hcont]; rfl
    have g0 : c.wr.data.getD c.wr.pos 0 = f.1 := by
      rw [hi.getD0 (by omega)]; simp only [hcont]; rfl
    rw [g1, g2, be16_val hf.2]
    rw [if_neg (by have := hf.1; omega)]
    by_cases hw : f.2.length + 2 + 1 > c.windowLeft
    · rw [if_pos hw]
      have ecur : ({ c with curLen := 0 } : Chan) = c := by rw [← hc]
      rw [ecur]
      obtain ⟨c', b, o, e, a1, a2, a3, a4⟩ := setupAck_spec h hs (by
        intro f' q' hq
        rw [(List.cons.inj hq).1] at hw
        omega)
      exact ⟨c', b, f :: q, o, by rw [e], a1, a2, a3, a4⟩
    · rw [if_neg hw]
      have hd := hi.drop (n := 1) (by omega)
      have hn1 : c.wr.next 1 = (c.wr.pos + 1) % c.wr.data.length := hi.next (by omega)
      have hdc : (List.flatMap enc (f :: q)).drop 1 = (be16 f.2.length ++ f.2) ++ q.flatMap enc := by
        rw [hcont]; simp [be16]
      rw [hdc] at hd
      have hlt : c.wr.next 1 < c.wr.data.length := hd.pos
      have hsplit : ((be16 f.2.length ++ f.2) ++ q.flatMap enc).take (f.2.length + 2) = be16 f.2.length ++ f.2 := by
        rw [List.take_left' (by simp [be16])]
      have hpos : ∀ k, c.wr.next 1 + k < c.wr.data.length →
          c.wr.next 1 + k = (c.wr.next 1 + k) % c.wr.data.length := fun k hk => (Nat.mod_eq_of_lt hk).symm
      refine ⟨_, true, q, _, rfl, .msg _ f q rfl (by omega) ?_ rfl, ⟨⟨be16 f.2.length ++ f.2, ?_, hd⟩, ?_, ?_, ?_, ?_⟩, ?_, ?_⟩
      · simp only [Chan.setupMsg]
        congr 1
        omega
      · simp only [Chan.setupMsg, List.length_append, be16_length]; omega
      · intro g hg; exact h.ok g (List.mem_cons_of_mem _ hg)
      · intro off len hm k hk
        simp only [Chan.setupMsg] at hm ⊢
        split at hm
        · rename_i hwrap
          simp only [List.mem_cons, Seg.ring.injEq, reduceCtorEq, false_or, List.not_mem_nil, or_false] at hm
          rcases hm with ⟨rfl, rfl⟩ | ⟨rfl, rfl⟩
          · exact ⟨k, by omega, hpos k (by omega)⟩
          · refine ⟨(c.wr.data.length - c.wr.next 1) + k, by omega, ?_⟩
            rw [show c.wr.next 1 + (c.wr.data.length - c.wr.next 1 + k) = c.wr.data.length + k by omega,
              Nat.add_mod_left, Nat.zero_add, Nat.mod_eq_of_lt (by omega)]
        · simp only [List.mem_cons, Seg.ring.injEq, reduceCtorEq, false_or, List.not_mem_nil, or_false] at hm
          obtain ⟨rfl, rfl⟩ := hm
          exact ⟨k, hk, hpos k (by omega)⟩
      · intro s hm
        have hseg : ∀ o l : Nat, o + l ≤ c.wr.data.length → ((c.wr.data.drop o).take l).length = l := by
          intro o l hol
          rw [List.length_take, List.length_drop]; omega
        simp only [Chan.setupMsg] at hm
        split at hm
        · rename_i hwrap
          simp only [List.mem_cons, List.not_mem_nil, or_false] at hm
          rcases hm with rfl | rfl | rfl
          · exact ⟨rfl, by simp [Seg.len]⟩
          · exact ⟨hseg _ _ (by omega), by simp only [Seg.len]; omega⟩
          · exact ⟨hseg _ _ (by omega), by simp only [Seg.len]; omega⟩
        · simp only [List.mem_cons, List.not_mem_nil, or_false] at hm
          rcases hm with rfl | rfl
          · exact ⟨rfl, by simp [Seg.len]⟩
          · exact ⟨hseg _ _ (by omega), by simp only [Seg.len]; omega⟩
      · intro hsg
        simp only [Chan.setupMsg] at hsg
        split at hsg <;> simp at hsg
      · intro hb; cases hb
      · intro _
        refine ⟨?_, _, rfl, hf.2, ?_⟩
        · simp only [Chan.setupMsg]
          split <;> simp
        · have hbytes : (Msg.data c.remoteId c.recvUnacked f.1 f.2).bytes
              = ([0x52, f.1] ++ be16 c.remoteId ++ be32 c.recvUnacked) ++ (be16 f.2.length ++ f.2) := by
            simp [Msg.bytes]
          rw [hbytes]
          simp only [Chan.setupMsg, Chan.pend, g0]
          have hmod : c.wr.next 1 = (c.wr.next 1 + 0) % c.wr.data.length := by
            rw [Nat.add_zero, Nat.mod_eq_of_lt hlt]
          split
          · rename_i hwrap
            have := hd.slice2 (k := 0) (n := f.2.length + 2) (by simp [be16]) hmod (by simpa using hwrap)
            simp only [List.drop_zero, hsplit] at this
            simp only [List.flatMap_cons, List.flatMap_nil, Chan.segBytes, List.append_nil, List.drop_zero]
            rw [this]
            rfl
          · rename_i hwrap
            have := hd.slice (k := 0) (n := f.2.length + 2) (by simp [be16]) hmod (by simpa using hwrap)
            simp only [List.drop_zero, hsplit] at this
            simp only [List.flatMap_cons, List.flatMap_nil, Chan.segBytes, List.append_nil, List.drop_zero]
            rw [this]
            rfl

/-! ## Sending -/

theorem ChanTx.advance {c : Chan} {q : List Frame} (h : ChanTx c q) (n : Nat) (hne : advance c.sg n ≠ []) :
    ChanTx { c with sg := advance c.sg n } q
      ∧ ({ c with sg := Gensio.Mux.advance c.sg n } : Chan).pend = c.pend.drop n := by
  obtain ⟨a1, a2, a3⟩ := advance_spec c c.sg n (fun s hs => (h.seglen s hs).1) (fun s hs => (h.seglen s hs).2)
  refine ⟨⟨h.ring, h.ok, ?_, fun s hs => ⟨a2 s hs, a3 s hs⟩, fun hs => absurd hs hne⟩, a1⟩
  intro off len hm k hk
  obtain ⟨o, l, m1, m2, m3⟩ := advance_ring c.sg n off len hm
  obtain ⟨j, hj, e⟩ := h.segs o l m1 (off - o + k) (by omega)
  exact ⟨j, hj, by rw [← e]; omega⟩

theorem advance_nil_iff {c : Chan} {q : List Frame} (h : ChanTx c q) (n : Nat) :
    advance c.sg n = [] ↔ c.pend.length ≤ n := by
  obtain ⟨a1, a2, a3⟩ := advance_spec c c.sg n (fun s hs => (h.seglen s hs).1) (fun s hs => (h.seglen s hs).2)
  constructor
  · intro he
    rw [he] at a1
    have := congrArg List.length a1
    simp only [List.flatMap_nil, List.length_nil, List.length_drop] at this
    rw [Chan.pend]; omega
  · intro hl
    have hz : ((Gensio.Mux.advance c.sg n).flatMap c.segBytes) = [] := by
      rw [a1]; exact List.drop_eq_nil_of_le (by rw [Chan.pend] at hl; omega)
    cases hsg : Gensio.Mux.advance c.sg n with
    | nil => rfl
    | cons s l =>
      rw [hsg] at a2 a3 hz
      have h2 := a2 s (List.mem_cons_self ..)
      have h3 := a3 s (List.mem_cons_self ..)
      rw [List.flatMap_cons] at hz
      have := congrArg List.length hz
      simp only [List.length_append, List.length_nil] at this
      omega

/-- The channel after its message was sent completely. -/
theorem ChanTx.done {c : Chan} {q : List Frame} (h : ChanTx c q) :
    (if c.curLen ≤ c.wr.len then c.wr.len - c.curLen else c.wr.len + 18446744073709551616 - c.curLen)
      = (q.flatMap enc).length ∧
    ∀ (hd : List UInt8) (b1 b2 : Bool), ChanTx { c with
      wr := { c.wr with pos := c.wr.next c.curLen, len := (q.flatMap enc).length }
      curLen := 0, sg := [], hdr := hd, wrReady := b1, inWrlist := b2 } q := by
  obtain ⟨x, hx, hh⟩ := h.ring
  have hl := hh.len
  rw [List.length_append] at hl
  rw [if_pos (by omega)]
  refine ⟨by omega, ?_⟩
  intro hd b1 b2
  have := hh.drop (n := c.curLen) (by rw [List.length_append]; omega)
  rw [List.drop_left' hx] at this
  refine ⟨⟨[], rfl, ?_⟩, h.ok, ?_, ?_, fun _ => rfl⟩
  · have e : c.wr.len - c.curLen = (q.flatMap enc).length := by omega
    rw [e] at this
    simpa using this
  · intro off len hm; simp at hm
  · intro s hm; simp at hm

end Gensio.Mux
