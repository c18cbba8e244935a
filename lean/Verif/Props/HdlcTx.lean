import Verif.Props.HdlcTab
/-!
# C55, C56: the HDLC sender's queue and the receiver's bit count
-/
namespace Gensio.Hdlc
open Gensio.Crc

/-! ### C55 -/

/-- The bits of a frame as sent: padded with zeros to a whole number of bytes. -/
def padded (c : Cfg) (d : List UInt8) : List Bool :=
  frameBits c d ++ List.replicate ((8 - (frameBits c d).length % 8) % 8) false

/-- A sender with everything the lower layer took and every frame whose write reported success. -/
structure SLog where
  t : Tx
  sent : List UInt8 := []
  accepted : List (List UInt8) := []

/-- One write, the lower layer taking up to `acc` bytes (all, if it takes more than offered). -/
def SLog.call (c : Cfg) (l : SLog) (op : List UInt8 × Option Nat) : Option SLog := do
  let (t, r, ev) ← ulWrite c l.t op.1 op.2
  some
    { t := t
      sent := l.sent ++ (match ev with | some (sg, _, n) => sg.take n | none => [])
      accepted := l.accepted ++ (if r = .ok op.1.length ∧ op.1 ≠ [] then [op.1] else []) }

def SLog.run (c : Cfg) (l : SLog) (ops : List (List UInt8 × Option Nat)) : Option SLog := ops.foldlM (SLog.call c) l

/-- Bytes of a buffer still to send. -/
def rest (w : WrBuf) : List UInt8 := (w.data.drop w.outpos).take (w.len - w.outpos)

/-- Bytes in the queue. -/
def pend (t : Tx) : List UInt8 :=
  if t.nr = 0 then []
  else if t.nr = 1 then (t.bufs[t.cur]?.map rest).getD []
  else (t.bufs[t.cur]?.map rest).getD [] ++ (t.bufs[(t.cur + 1) % 2]?.map rest).getD []

theorem wireOf_padded (c : Cfg) (buf d : List UInt8) (o : Out) (h : encode c buf d = some o) :
    msgLsb (wireOf o) = padded c d := by
  obtain ⟨e1, e2⟩ := encode_spec c buf d
  by_cases hl : (frameBits c d).length / 8 < buf.length
  · obtain ⟨o', e, hi, hb, _⟩ := e1 hl
    rw [h] at e
    obtain rfl := Option.some.inj e
    obtain ⟨pad, hp, hw⟩ := wireOf_bits o hi
    rw [hw, hb, padded]
    have hlen := congrArg List.length hw
    have h8 : ∀ l : List UInt8, (msgLsb l).length = 8 * l.length := by
      intro l
      induction l with
      | nil => rfl
      | cons b l ih => rw [msgLsb_cons, List.length_append, ih]; simp; omega
    rw [h8, List.length_append, List.length_replicate, hb] at hlen
    have : pad = (8 - (frameBits c d).length % 8) % 8 := by omega
    rw [← this]
  · rw [e2 (by omega)] at h; simp at h

/-- Shape of the queue. -/
structure QI (t : Tx) : Prop where
  two : t.bufs.length = 2
  cur : t.cur < 2
  nr : t.nr = 0 ∨ t.nr = 1 ∨ t.nr = 2

theorem two_cases {α} {l : List α} (h : l.length = 2) : ∃ a b, l = [a, b] := by
  match l, h with
  | [a, b], _ => exact ⟨a, b, rfl⟩

theorem rest_split (w : WrBuf) (n : Nat) (h : ¬ n + w.outpos ≥ w.len) :
    rest w = (rest w).take n ++ rest { w with outpos := w.outpos + n, bitlen := w.bitlen - n * 8 } := by
  simp only [rest]
  rw [List.take_take, Nat.min_eq_left (by omega)]
  have : (w.data.drop w.outpos).take (w.len - w.outpos) =
      (w.data.drop w.outpos).take (n + (w.len - (w.outpos + n))) := by congr 1; omega
  rw [this, List.take_add, List.drop_drop]

/-- Sending from a queue that is not empty: bytes move from the queue to the lower layer. -/
theorem handleSend_queue (t : Tx) (hq : QI t) (hn : t.nr ≠ 0) (n : Nat) :
    ∃ t' sg nb, handleSend t (some n) = some (t', false, sg, nb, n) ∧ QI t' ∧ t'.err = t.err ∧ t'.nr ≤ 2 ∧
      pend t = sg.take n ++ pend t' := by
  obtain ⟨h2, hc, hnr⟩ := hq
  obtain ⟨bufs, cur, nr, err⟩ := t
  obtain ⟨a, b, rfl⟩ := two_cases h2
  simp only at hc hnr hn
  have hcur : cur = 0 ∨ cur = 1 := by omega
  have key : ∀ w : WrBuf, (n + w.outpos ≥ w.len) → (rest w).take n = rest w := by
    intro w h
    apply List.take_of_length_le
    simp [rest]; omega
  rcases hnr with rfl | rfl | rfl
  · exact absurd rfl hn
  all_goals
    rcases hcur with rfl | rfl
    · simp only [handleSend, List.getElem?_cons_zero, Option.bind_eq_bind, Option.bind_some]
      by_cases hf : n + a.outpos ≥ a.len
      · rw [if_pos hf]
        refine ⟨_, _, _, rfl, ⟨rfl, by simp, by simp⟩, rfl, by simp, ?_⟩
        have := key a hf
        simp only [rest] at this
        simp [pend, rest, this]
      · rw [if_neg hf]
        refine ⟨_, _, _, rfl, ⟨by simp, by simp, by simp⟩, rfl, by simp, ?_⟩
        have := rest_split a n hf
        simp [pend]
        first
          | exact this
          | (conv => lhs; rw [this]
             simp [rest])
    · simp only [handleSend, List.getElem?_cons_zero, List.getElem?_cons_succ, Option.bind_eq_bind, Option.bind_some]
      by_cases hf : n + b.outpos ≥ b.len
      · rw [if_pos hf]
        refine ⟨_, _, _, rfl, ⟨rfl, by simp, by simp⟩, rfl, by simp, ?_⟩
        have := key b hf
        simp only [rest] at this
        simp [pend, rest, this]
      · rw [if_neg hf]
        refine ⟨_, _, _, rfl, ⟨by simp, by simp, by simp⟩, rfl, by simp, ?_⟩
        have := rest_split b n hf
        simp [pend]
        first
          | exact this
          | (conv => lhs; rw [this]
             simp [rest])

theorem queueFrame_queue (c : Cfg) (t t' : Tx) (hq : QI t) (hn : ¬ t.nr ≥ 2) (d : List UInt8)
    (h : queueFrame c t d = some t') :
    QI t' ∧ t'.nr ≠ 0 ∧ t'.err = t.err ∧ ∃ x, msgLsb x = padded c d ∧ pend t' = pend t ++ x := by
  obtain ⟨h2, hc, hnr⟩ := hq
  obtain ⟨bufs, cur, nr, err⟩ := t
  obtain ⟨a, b, rfl⟩ := two_cases h2
  simp only at hc hnr hn
  have hcur : cur = 0 ∨ cur = 1 := by omega
  simp only [queueFrame, Option.bind_eq_bind, Option.bind_eq_some_iff] at h
  obtain ⟨w, hw, o, ho, e⟩ := h
  obtain rfl := Option.some.inj e
  have hx := wireOf_padded c _ d o ho
  have hr : rest { data := o.buf, len := if o.bitPos > 0 then o.pos + 1 else o.pos, outpos := 0,
                   bitlen := o.pos * 8 + o.bitPos } = wireOf o := by
    simp [rest, wireOf]
  rcases hnr with rfl | rfl | rfl
  · rcases hcur with rfl | rfl
    all_goals
      refine ⟨⟨by simp, by simp, by simp⟩, by simp, rfl, wireOf o, hx, ?_⟩
      simp [pend, ← hr]
  · rcases hcur with rfl | rfl
    all_goals
      refine ⟨⟨by simp, by simp, by simp⟩, by simp, rfl, wireOf o, hx, ?_⟩
      simp [pend, ← hr]
  · exact absurd (by decide) hn

theorem msgLsb_prefix {a b : List UInt8} : msgLsb a <+: msgLsb (a ++ b) := by
  rw [msgLsb_append]; exact List.prefix_append _ _

/-- Invariant of the log. -/
def SInv (c : Cfg) (l : SLog) : Prop :=
  (l.t.err = false → QI l.t ∧ msgLsb (l.sent ++ pend l.t) = (l.accepted.map (padded c)).flatten) ∧
  msgLsb l.sent <+: (l.accepted.map (padded c)).flatten

theorem SInv.ofQ {c : Cfg} {l : SLog} (h : QI l.t) (e : msgLsb (l.sent ++ pend l.t) = (l.accepted.map (padded c)).flatten) :
    SInv c l := ⟨fun _ => ⟨h, e⟩, by rw [← e]; exact msgLsb_prefix⟩

theorem call_sinv (c : Cfg) (l l' : SLog) (op : List UInt8 × Option Nat) (hop : op.1 ≠ []) (h : SInv c l)
    (e : l.call c op = some l') : SInv c l' := by
  obtain ⟨d, acc⟩ := op
  simp only at hop
  simp only [SLog.call, Option.bind_eq_bind, Option.bind_eq_some_iff] at e
  obtain ⟨⟨t, r, ev⟩, e1, e2⟩ := e
  obtain rfl := Option.some.inj e2
  by_cases herr : l.t.err = true
  · simp only [ulWrite, herr, if_true, Option.some.injEq, Prod.mk.injEq] at e1
    obtain ⟨rfl, rfl, rfl⟩ := e1
    exact ⟨by simp [herr], by simpa using h.2⟩
  have herr : l.t.err = false := by simpa using herr
  obtain ⟨hq, hp⟩ := h.1 herr
  simp only [ulWrite, herr, Bool.false_eq_true, if_false] at e1
  by_cases hn : l.t.nr ≥ 2
  · rw [if_pos (Or.inl hn)] at e1
    cases acc with
    | none =>
      simp only [handleSend, Option.bind_eq_bind, Option.bind_eq_some_iff] at e1
      obtain ⟨⟨t1, e1', sg, nb, n⟩, ⟨w, hw, e3⟩, e4⟩ := e1
      simp only [Option.some.injEq, Prod.mk.injEq] at e3 e4
      obtain ⟨rfl, rfl, rfl, rfl, rfl⟩ := e3
      obtain ⟨rfl, rfl, rfl⟩ := e4
      exact ⟨by simp, by simpa using h.2⟩
    | some k =>
      have hn0 : l.t.nr ≠ 0 := by intro h0; rw [h0] at hn; exact absurd hn (by decide)
      obtain ⟨t', sg, nb, e3, q, q2, _, q3⟩ := handleSend_queue l.t hq hn0 k
      rw [e3] at e1
      simp only [Option.bind_eq_bind, Option.bind_some, Option.some.injEq, Prod.mk.injEq, Bool.false_eq_true, if_false] at e1
      obtain ⟨rfl, rfl, rfl⟩ := e1
      have hne : ¬ (Res.ok 0 = Res.ok d.length ∧ d ≠ []) := by
        rintro ⟨h1, h2⟩
        injection h1 with h1
        exact h2 (List.length_eq_zero_iff.mp h1.symm)
      apply SInv.ofQ q
      simp only [if_neg hne, List.append_nil]
      rw [List.append_assoc, ← q3]
      exact hp
  · rw [if_neg (fun h => h.elim hn hop)] at e1
    by_cases hb : d.length > c.maxWrite
    · rw [if_pos hb] at e1
      simp only [Option.some.injEq, Prod.mk.injEq] at e1
      obtain ⟨rfl, rfl, rfl⟩ := e1
      simpa [SInv] using h
    · rw [if_neg hb] at e1
      simp only [Option.bind_eq_bind, Option.bind_eq_some_iff] at e1
      obtain ⟨t1, e3, ⟨t2, er, sg, nb, n⟩, e4, e5⟩ := e1
      obtain ⟨q, qn, qe, x, hx, hpx⟩ := queueFrame_queue c l.t t1 hq hn d e3
      simp only [Option.some.injEq, Prod.mk.injEq] at e5
      obtain ⟨rfl, rfl, rfl⟩ := e5
      cases acc with
      | none =>
        simp only [handleSend, Option.bind_eq_bind, Option.bind_eq_some_iff] at e4
        obtain ⟨w, hw, e3⟩ := e4
        simp only [Option.some.injEq, Prod.mk.injEq] at e3
        obtain ⟨rfl, rfl, rfl, rfl, rfl⟩ := e3
        exact ⟨by simp, by simpa using h.2⟩
      | some k =>
        obtain ⟨t', sg', nb', e6, q1, q2, _, q3⟩ := handleSend_queue t1 q qn k
        rw [e6] at e4
        simp only [Option.some.injEq, Prod.mk.injEq] at e4
        obtain ⟨rfl, rfl, rfl, rfl, rfl⟩ := e4
        apply SInv.ofQ q1
        simp only [Bool.false_eq_true, if_false, true_and, if_pos hop]
        rw [List.append_assoc, ← q3, hpx, ← List.append_assoc, msgLsb_append, hp, hx]
        simp

/-- **C55, writes that are not empty.**  Whatever part of each offer the lower layer takes, and
even if it fails at some point, the bits it took are a prefix of the frames of the accepted
writes, in order and once each; with no failure and an empty queue they are all of it.
Missing: writes of no bytes, see `C55_empty_write_violated`. -/
theorem C55_exactly_once_partial (c : Cfg) (ops : List (List UInt8 × Option Nat)) (hops : ∀ op ∈ ops, op.1 ≠ []) (l : SLog)
    (e : SLog.run c { t := Tx.alloc c } ops = some l) :
    msgLsb l.sent <+: (l.accepted.map (padded c)).flatten ∧
    (l.t.err = false → l.t.nr = 0 → msgLsb l.sent = (l.accepted.map (padded c)).flatten) := by
  have key : ∀ (ops : List (List UInt8 × Option Nat)) (l0 l : SLog), (∀ op ∈ ops, op.1 ≠ []) → SInv c l0 →
      SLog.run c l0 ops = some l → SInv c l := by
    intro ops
    induction ops with
    | nil =>
      intro l0 l _ h e
      obtain rfl := Option.some.inj e
      exact h
    | cons op ops ih =>
      intro l0 l ho h e
      simp only [SLog.run, List.foldlM_cons, Option.bind_eq_bind, Option.bind_eq_some_iff] at e
      obtain ⟨l1, e1, e2⟩ := e
      exact ih l1 l (fun o h => ho o (by simp [h])) (call_sinv c l0 l1 op (ho op (by simp)) h e1) e2
  have h := key ops _ l hops (SInv.ofQ ⟨rfl, by simp [Tx.alloc], Or.inl rfl⟩ (by simp [pend, Tx.alloc, msgLsb])) e
  refine ⟨h.2, fun he hn => ?_⟩
  obtain ⟨_, hp⟩ := h.1 he
  simpa [pend, hn] using hp

/-- Three writes with partial acceptance; the third is refused (queue full) and only drains it. -/
example : (SLog.run exCfg { t := Tx.alloc exCfg } [([0xff, 0xff, 0x0f], some 3), ([1], some 0), ([2], some 100)]).map
    (fun l => (l.sent, l.accepted, l.t.nr)) =
    some ([0x7e, 0xdf, 0xf7, 0x7d, 0x80, 0x70, 0xe0, 0x07], [[0xff, 0xff, 0x0f], [1]], 1) := by
  decide +kernel

/-- **C55 violated.**  For every frame that fits: send it, the lower layer taking all of it at
once; then make two writes of no bytes (a scatter/gather list of empty entries), the lower layer
taking everything offered.  The frame is sent twice, and the count of queued buffers is
4294967294, so no further write is ever accepted (`nr ≥ 2`). -/
theorem C55_empty_write_violated (c : Cfg) (d : List UInt8) (hd : d ≠ []) (hm : d.length ≤ c.maxWrite) (o : Out)
    (ho : encode c (List.replicate (wrCap c) 0) d = some o) (n : Nat) (hn : (wireOf o).length ≤ n) :
    (SLog.run c { t := Tx.alloc c } [(d, some n), ([], some n), ([], some n)]).map (fun l => (l.sent, l.accepted, l.t.nr)) =
      some (wireOf o ++ wireOf o, [d], 0xfffffffe) := by
  have hlen : (if o.bitPos > 0 then o.pos + 1 else o.pos) ≤ n := by
    obtain ⟨e1, e2⟩ := encode_spec c (List.replicate (wrCap c) 0) d
    by_cases hl : (frameBits c d).length / 8 < (List.replicate (wrCap c) (0 : UInt8)).length
    · obtain ⟨o', e, hi, _, hlb⟩ := e1 hl
      rw [ho] at e
      obtain rfl := Option.some.inj e
      have h1 := hi.1
      simp only [wireOf, List.length_take] at hn
      rw [Nat.min_eq_left (by split <;> omega)] at hn
      exact hn
    · rw [e2 (by omega)] at ho; simp at ho
  have hlen' : (wireOf o).take n = wireOf o := List.take_of_length_le hn
  have hq : queueFrame c (Tx.alloc c) d = some { Tx.alloc c with
      bufs := [{ data := o.buf, len := if o.bitPos > 0 then o.pos + 1 else o.pos, outpos := 0, bitlen := o.pos * 8 + o.bitPos },
        { data := List.replicate (wrCap c) 0 }], nr := 1 } := by
    simp [queueFrame, Tx.alloc, ho]
  have hz : (wireOf o) = List.take (if o.bitPos > 0 then o.pos + 1 else o.pos) o.buf := rfl
  have h1 : SLog.call c { t := Tx.alloc c } (d, some n) = some
      { t := { Tx.alloc c with
          bufs := [{ data := o.buf, len := if o.bitPos > 0 then o.pos + 1 else o.pos, outpos := 0, bitlen := o.pos * 8 + o.bitPos },
            { data := List.replicate (wrCap c) 0 }], cur := 1 }
        sent := wireOf o, accepted := [d] } := by
    have hc : ¬ ((Tx.alloc c).nr ≥ 2 ∨ d = []) := by
      rintro (h | h)
      · exact absurd h (by simp [Tx.alloc])
      · exact hd h
    simp only [SLog.call, ulWrite, if_neg hc, if_neg (by omega : ¬ d.length > c.maxWrite), hq]
    simp [Tx.alloc, handleSend, hlen, hd]
    rw [← hz, hlen']
  simp only [SLog.run, List.foldlM_cons, List.foldlM_nil, h1, Option.bind_eq_bind, Option.bind_some]
  simp only [SLog.call, ulWrite, Tx.alloc, handleSend]
  simp [hlen]
  rw [← hz, hlen']
  exact ⟨rfl, by decide⟩

example : ∃ o, encode exCfg (List.replicate (wrCap exCfg) 0) [1, 2, 3] = some o := by
  have h := (encode_spec exCfg (List.replicate (wrCap exCfg) 0) [1, 2, 3]).1 (by decide +kernel)
  exact ⟨h.choose, h.choose_spec.1⟩

/-! ### C56 -/

/-- The bits of the buffer with the uncertainty of each, zero if there is no array. -/
def withUnc (bits : List Bool) (u : Option (List UInt8)) : Hist :=
  match u with
  | some l => bits.zip (l.map UInt8.toUInt32)
  | none => bits.map fun b => (b, 0)

def feedBits (c : Cfg) (f : Rx) (h : Hist) : Rx := h.foldl (fun f x => processBit c f x.1 x.2) f

/-- **C56 violated.**  Without an uncertainty array the bit count is not respected: whatever
count above 0 is given, every bit of the buffer is processed (:834, `nbits++`). -/
theorem C56_bit_count_ignored_violated (c : Cfg) (f : Rx) (buf : List UInt8) (nbits : Nat) (h : 0 < nbits) :
    byteLoop c none f 0 nbits buf = some (feedBits c f (withUnc (msgLsb buf) none)) := by
  rw [byteLoop_none c buf f 0 nbits h]
  simp [feedBits, withUnc, List.foldl_map]

theorem lsb_shift (b : UInt8) : lsbBits 8 b.toNat = (b &&& 1 == 1) :: (lsbBits 8 (b >>> 1).toNat).take 7 := by
  have h : ∀ x : Fin 256, lsbBits 8 (UInt8.ofNat x.1).toNat =
      ((UInt8.ofNat x.1) &&& 1 == 1) :: (lsbBits 8 ((UInt8.ofNat x.1) >>> 1).toNat).take 7 := by decide +kernel
  simpa using h ⟨b.toNat, b.toNat_lt⟩

theorem bitLoop_some (c : Cfg) (l : List UInt8) (i : Nat) (n : Nat) : ∀ (f : Rx) (byte : UInt8) (j nb : Nat), n ≤ 8 →
    i * 8 + j + n ≤ l.length →
    bitLoop c (some l) f byte i j nb n = some (feedBits c f
      ((((lsbBits 8 byte.toNat).take n).take nb).zip ((l.drop (i * 8 + j)).map UInt8.toUInt32)), nb - n) := by
  induction n with
  | zero => intro f byte j nb _ _; simp [bitLoop, feedBits]
  | succ n ih =>
    intro f byte j nb h8 hl
    rw [bitLoop]
    by_cases h0 : nb = 0
    · subst h0; simp [feedBits]
    · rw [if_neg h0]
      have hg : l[i * 8 + j]? = some l[i * 8 + j] := List.getElem?_eq_getElem (by omega)
      simp only [hg]
      rw [ih _ _ _ _ (by omega) (by omega), lsb_shift byte]
      obtain ⟨k, rfl⟩ : ∃ k, nb = k + 1 := ⟨nb - 1, by omega⟩
      have hd : l.drop (i * 8 + j) = l[i * 8 + j] :: l.drop (i * 8 + (j + 1)) := by
        rw [List.drop_eq_getElem_cons (by omega)]; rfl
      rw [hd]
      simp only [List.take_succ_cons, List.map_cons, List.zip_cons_cons, feedBits, List.foldl_cons, Nat.add_sub_cancel]
      rw [List.take_take (i := n) (j := 7), Nat.min_eq_left (by omega : n ≤ 7), Nat.add_sub_add_right]

theorem byteLoop_some (c : Cfg) (l : List UInt8) (buf : List UInt8) : ∀ (f : Rx) (i nb : Nat),
    (i + buf.length) * 8 ≤ l.length →
    byteLoop c (some l) f i nb buf = some (feedBits c f
      (((msgLsb buf).take nb).zip ((l.drop (i * 8)).map UInt8.toUInt32))) := by
  induction buf with
  | nil => intro f i nb _; simp [byteLoop, feedBits, msgLsb]
  | cons b buf ih =>
    intro f i nb hl
    simp only [List.length_cons] at hl
    rw [byteLoop]
    by_cases h0 : nb = 0
    · subst h0; simp [feedBits]
    · rw [if_neg h0, bitLoop_some c l i 8 f b 0 nb (by omega) (by omega)]
      simp only [Option.bind_eq_bind, Option.bind_some]
      rw [ih _ (i + 1) _ (by omega), msgLsb_cons, List.take_append]
      have hlen : (lsbBits 8 b.toNat).length = 8 := by simp
      have hd : l.drop (i * 8) = (l.drop (i * 8)).take 8 ++ l.drop ((i + 1) * 8) := by
        conv => lhs; rw [← List.take_append_drop 8 (l.drop (i * 8)), List.drop_drop]
        congr 2; omega
      rw [Nat.add_zero, hlen, List.take_of_length_le (i := 8) (by simp)]
      by_cases h8 : nb < 8
      · have : nb - 8 = 0 := by omega
        simp [this, feedBits]
      · rw [List.take_of_length_le (i := nb) (by simp; omega)]
        conv => rhs; rw [hd, List.map_append]
        rw [List.zip_append (by simp; omega)]
        simp only [feedBits, List.foldl_append]
        congr 2
        have : (lsbBits 8 b.toNat).zip ((l.drop (i * 8)).map UInt8.toUInt32) =
            (lsbBits 8 b.toNat).zip (((l.drop (i * 8)).take 8).map UInt8.toUInt32) := by
          conv => lhs; rw [hd, List.map_append]
          rw [List.zip_eq_zip_take_min]
          conv => rhs; rw [List.zip_eq_zip_take_min]
          have h1 : ((l.drop (i * 8)).take 8).length = 8 := by simp; omega
          simp only [List.length_map, List.length_append, hlen, h1]
          rw [Nat.min_eq_left (by omega), Nat.min_self, List.take_append_of_le_length (by simp; omega)]
        rw [this]

/-- **C56 with an uncertainty array** for every bit of the buffer: exactly the first `nbits` bits are
processed, with their uncertainties.  Missing: the case without array
(`C56_bit_count_ignored_violated`). -/
theorem C56_with_uncertainty_partial (c : Cfg) (f : Rx) (buf l : List UInt8) (nbits : Nat) (hl : buf.length * 8 ≤ l.length) :
    byteLoop c (some l) f 0 nbits buf = some (feedBits c f (withUnc ((msgLsb buf).take nbits) (some l))) := by
  have := byteLoop_some c l buf f 0 nbits (by omega)
  simpa [withUnc] using this

/-- **C56 violated.**  With a single working message (`wmsgs=1`) every bit whose uncertainty is
above the limit is processed inverted (unless the accumulated uncertainty is just below 2^32): no
slot is free, `max_uncert` stays UINT_MAX, so the message itself is "replaced" by its copy with the
other bit value (:679-690, :674-676). -/
theorem C56_uncertain_bit_inverted_violated (c : Cfg) (f : Rx) (w : W) (hw : f.ws = [w]) (hu : w.inUse = true)
    (hnew : w.newW = false) (b : Bool) (u : UInt32) (hm : c.maxUnc < u) (ha : w.unc + 100 - u < 0xffffffff) :
    processBit c f b u =
      stepW c { f with gotFlag := false, curW := f.curW - 1 + 1, ws := [{ w with unc := w.unc + 100 - u, newW := true }] } 0
        (!b) := by
  have h1 : (List.range 1) = [0] := rfl
  simp only [processBit, hw, List.length_singleton, h1, List.foldl_cons, List.foldl_nil, processW, List.getElem?_cons_zero, hu,
    Bool.not_true, Bool.false_eq_true, if_false]
  rw [if_pos ⟨hm, hnew⟩]
  simp [split, freeSlot, minUnc, h1, addAt, ha, hu]

/-- A frame in which one bit is marked uncertain but is right: with 4 working messages it is delivered,
with 1 it is lost. -/
example :
    let bits := (msgLsb [0x7e, 0xdf, 0xf7, 0x7d, 0x80, 0x70, 0xe0, 0x07]).map fun b => (b, (0 : UInt32))
    let bits := bits.set 20 (true, 40)
    (feedBits exCfg (Rx.alloc 4) bits).dnum = 1 ∧ (feedBits exCfg (Rx.alloc 1) bits).dnum = 0 := by
  decide +kernel

/-- A buffer with 4 valid bits, as `nbits=4`: the same bits are all processed without the array,
and only 4 with it. -/
example : (byteLoop exCfg none (Rx.alloc 1) 0 4 [0x7e]).map (fun f => f.ws.map W.st) = some [.inMsg] ∧
    (byteLoop exCfg (some (List.replicate 8 0)) (Rx.alloc 1) 0 4 [0x7e]).map (fun f => f.ws.map W.st) = some [.pre1] := by
  decide +kernel

end Gensio.Hdlc
