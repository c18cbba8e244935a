import Verif.Lemmas.HdlcRx
import Verif.Props.Crc
/-!
# HDLC layer: C21, C22, C23
-/
namespace Gensio.Hdlc
open Gensio.Crc

/-! ### C21 -/

/-- Specification of removing stuffed bits: the bit after five ones is dropped. -/
def unstuff : Nat → List Bool → List Bool
  | _, [] => []
  | k, b :: bs => if k = 5 then unstuff 0 bs else b :: unstuff (if b then k + 1 else 0) bs

theorem unstuff_stuff (bits : List Bool) : ∀ k, unstuff k (stuff k bits) = bits := by
  induction bits with
  | nil => intro k; simp [stuff, unstuff]
  | cons b bits ih =>
    intro k
    by_cases h : k = 5
    · subst h; simp [stuff, unstuff, ih]
    · simp [stuff, unstuff, h, ih]

/-- Never six ones in a row, `k` before. -/
def fewOnes : Nat → List Bool → Prop
  | k, [] => k < 6
  | k, b :: bs => k < 6 ∧ fewOnes (if b then k + 1 else 0) bs

theorem fewOnes_stuff (bits : List Bool) : ∀ k, k ≤ 5 → fewOnes k (stuff k bits) := by
  induction bits with
  | nil => intro k h; simp [stuff, fewOnes]; omega
  | cons b bits ih =>
    intro k h
    by_cases h5 : k = 5
    · subst h5
      simp only [stuff, if_true, fewOnes, Bool.false_eq_true, if_false]
      exact ⟨by omega, by omega, by cases b <;> simp <;> exact ih _ (by omega)⟩
    · simp only [stuff, h5, if_false, fewOnes]
      refine ⟨by omega, ih _ ?_⟩
      split <;> omega

theorem fewOnes_append (a : List Bool) : ∀ k b, fewOnes k (a ++ b) → ∃ j, fewOnes j b := by
  induction a with
  | nil => intro k b h; exact ⟨k, h⟩
  | cons x a ih => intro k b h; exact ih _ _ h.2

theorem noSix (k : Nat) (l : List Bool) (h : fewOnes k l) : ¬ List.replicate 6 true <:+: l := by
  rintro ⟨a, b, rfl⟩
  rw [List.append_assoc] at h
  obtain ⟨j, hj⟩ := fewOnes_append a k _ h
  simp [List.replicate, fewOnes] at hj
  have : ∀ i (b : List Bool), fewOnes i b → i < 6 := by
    intro i b h; cases b with
    | nil => exact h
    | cons => exact h.1
  have := this _ _ hj.2.2.2.2.2.2
  omega

/-- The bytes of a write buffer holding `o`, as `hdlc_ul_write` sets `len` (:474-477). -/
def wireOf (o : Out) : List UInt8 := o.buf.take (if o.bitPos > 0 then o.pos + 1 else o.pos)

theorem wireOf_bits (o : Out) (h : OInv o) :
    ∃ pad, pad < 8 ∧ msgLsb (wireOf o) = outBits o ++ List.replicate pad false := by
  obtain ⟨h1, h2, h3⟩ := h
  by_cases hb : o.bitPos > 0
  · refine ⟨8 - o.bitPos, by omega, ?_⟩
    rw [wireOf, if_pos hb, List.take_succ_eq_append_getElem h1, msgLsb_append, outBits, List.append_assoc]
    have hg : o.buf.getD o.pos 0 = o.buf[o.pos] := by simp [h1]
    rw [hg] at h3 ⊢
    rw [msgLsb_cons, msgLsb_nil, List.append_nil, ← take_bits_high _ _ h2 h3]
  · refine ⟨0, by omega, ?_⟩
    have : o.bitPos = 0 := by omega
    simp [wireOf, outBits, this]

/-- **C21, sending.**  The bytes of an encoded frame are, as bits: the preamble flags, a part
without six ones in a row, the postamble flags and less than a byte of zeros; and dropping every
bit after five ones gives back exactly the data and CRC. -/
theorem C21_transparent (c : Cfg) (buf d : List UInt8) (o : Out) (h : encode c buf d = some o) :
    ∃ mid pad, pad < 8 ∧ msgLsb (wireOf o) = flags c.pre ++ mid ++ flags c.post ++ List.replicate pad false ∧
      ¬ List.replicate 6 true <:+: mid ∧ unstuff 0 mid = msgLsb (body c d) := by
  obtain ⟨e1, e2⟩ := encode_spec c buf d
  by_cases hl : (frameBits c d).length / 8 < buf.length
  · obtain ⟨o', e, hi, hb, _⟩ := e1 hl
    rw [h] at e
    obtain rfl := Option.some.inj e
    obtain ⟨pad, hp, hw⟩ := wireOf_bits o hi
    exact ⟨stuff 0 (msgLsb (body c d)), pad, hp, by rw [hw, hb]; rfl,
      noSix 0 _ (fewOnes_stuff _ 0 (by omega)), unstuff_stuff _ 0⟩
  · rw [e2 (by omega)] at h; simp at h

/-- ff ff 0f with CRC: the ones cross the byte borders. -/
example : (encode ⟨258, 256, 1, 1, true, false, fun _ => true, 20⟩ (List.replicate 20 0) [0xff, 0xff, 0x0f]).map wireOf =
    some [0x7e, 0xdf, 0xf7, 0x7d, 0x80, 0x70, 0xe0, 0x07] := by decide +kernel

theorem hdlcFrame_take (d : List UInt8) : (hdlcFrame d).take ((hdlcFrame d).length - 2) = d := by
  simp [hdlcFrame]

theorem checkMsg_legal (c : Cfg) (d : List UInt8) (h : Legal c d) (w : W) (hr : w.rd = body c d)
    (hb : w.bitPos = 5 ∨ w.bitPos = 6) : checkMsg c w = some d := by
  obtain ⟨h0, h1, _, h3⟩ := h
  rw [← hr] at h1
  have hpos : ¬ (w.bitPos ≠ 6 ∧ w.bitPos ≠ 5) := by omega
  rw [checkMsg, if_neg (by omega), if_neg hpos]
  by_cases hc : c.doCrc = true
  · have hbd : body c d = hdlcFrame d := by simp [body, hc]
    rw [if_pos hc, hr, hbd, if_pos (C12_hdlc_accepts d h0), hdlcFrame_take]
    by_cases ha : c.checkAx25 = true
    · obtain ⟨a1, a2⟩ := h3 ha hc
      simp [a2, Nat.not_lt.mpr a1]
    · simp [ha]
  · simp [hc, hr, body]

theorem run1_body (c : Cfg) (d : List UInt8) (h : Legal c d) (w : W) (hw : AtFlag w) :
    ∃ w', run1 c w (stuff 0 (msgLsb (body c d)) ++ flag) = (w', [d]) ∧ AtFlag w' ∧ w'.inUse = w.inUse := by
  obtain ⟨hi, hb⟩ := hw.inv
  have ho : w.ones = 0 := hw.2.1
  obtain ⟨w1, e1, i1, b1, o1, u1⟩ := run1_stuff c (msgLsb (body c d)) w hi (by omega) (by
    rw [hb]; simp; have := h.2.2.1; omega)
  rw [hb, List.nil_append] at b1
  rw [ho] at e1 o1
  have hle := stuffEnd_le (msgLsb (body c d)) 0 (by omega)
  obtain ⟨w2, w3, e2, a2, b2, p2, u2⟩ := run1_flag c w1 i1 (by omega) (by
    rw [b1]; simp; have := h.2.2.1; omega)
  rw [b1] at b2
  obtain ⟨r2, q2⟩ := rd_of_bits p2 (body c d) _ (by split <;> simp) b2
  refine ⟨w3, ?_, a2, by rw [u2, u1]⟩
  rw [run1_append, e1]
  simp only [e2]
  rw [checkMsg_legal c d h w2 r2 (by rw [q2]; split <;> simp)]
  simp

/-- **C21, receiving.**  A receiver standing after a flag that gets the stuffed bits of any legal
frame and the closing flag delivers exactly that frame and stands after a flag again. -/
theorem C21_receive (c : Cfg) (d : List UInt8) (h : Legal c d) (w : W) (hw : AtFlag w) (mid : List Bool)
    (hm : mid = stuff 0 (msgLsb (body c d))) :
    ∃ w', run1 c w (mid ++ flag) = (w', [d]) ∧ AtFlag w' := by
  subst hm
  obtain ⟨w', e, a, _⟩ := run1_body c d h w hw
  exact ⟨w', e, a⟩

/-! ### Flags, padding and noise -/

theorem run1_flag_short (c : Cfg) (w : W) (bits : List Bool) (h : RInv w) (hk : w.ones ≤ 4) (hb : rdBits w = bits)
    (hl : bits.length < 8) (hm : 1 ≤ c.maxRead) :
    ∃ w', run1 c w flag = (w', []) ∧ AtFlag w' ∧ w'.inUse = w.inUse := by
  obtain ⟨w1, w2, e, a, b, p, u⟩ := run1_flag c w h (by omega) (by rw [hb]; omega)
  refine ⟨w2, ?_, a, u⟩
  have : w1.rd.length < 3 := by
    have := congrArg List.length b
    rw [hb, if_neg (by omega)] at this
    simp [rdBits] at this
    omega
  rw [e, checkMsg, if_pos this]; rfl

theorem run1_flags (c : Cfg) (hm : 1 ≤ c.maxRead) (n : Nat) : ∀ w, AtFlag w →
    ∃ w', run1 c w (flags n) = (w', []) ∧ AtFlag w' ∧ w'.inUse = w.inUse := by
  induction n with
  | zero => intro w h; exact ⟨w, rfl, h, rfl⟩
  | succ n ih =>
    intro w h
    obtain ⟨w1, e1, a1, u1⟩ := run1_flag_short c w [] h.inv.1 (by have := h.2.1; omega) h.inv.2 (by simp) hm
    obtain ⟨w2, e2, a2, u2⟩ := ih w1 a1
    exact ⟨w2, by rw [flags_succ, run1_append, e1]; simp [e2], a2, by rw [u2, u1]⟩

/-- A flag brings the receiver to a frame start without a message. -/
def Ready (c : Cfg) (w : W) : Prop := ∃ w', run1 c w flag = (w', []) ∧ AtFlag w' ∧ w'.inUse = w.inUse

theorem stuff_zeros (n : Nat) : stuff 0 (List.replicate n false) = List.replicate n false ∧
    stuffEnd 0 (List.replicate n false) = 0 := by
  induction n with
  | zero => simp [stuff, stuffEnd]
  | succ n ih => simp [List.replicate_succ, stuff, stuffEnd, ih]

theorem run1_pad (c : Cfg) (hm : 1 ≤ c.maxRead) (w : W) (h : AtFlag w) (pad : Nat) (hp : pad < 8) :
    ∃ w', run1 c w (List.replicate pad false) = (w', []) ∧ Ready c w' ∧ w'.inUse = w.inUse := by
  obtain ⟨hi, hb⟩ := h.inv
  have ho : w.ones = 0 := h.2.1
  obtain ⟨s1, s2⟩ := stuff_zeros pad
  obtain ⟨w1, e1, i1, b1, o1, u1⟩ := run1_stuff c (List.replicate pad false) w hi (by omega) (by rw [hb]; simp; omega)
  rw [ho, s1] at e1
  rw [ho, s2] at o1
  refine ⟨w1, e1, ?_, u1⟩
  exact run1_flag_short c w1 _ i1 (by omega) b1 (by rw [hb]; simpa using hp) hm

/-- A frame and its padding. -/
def wireBits (c : Cfg) (x : List UInt8 × Nat) : List Bool := frameBits c x.1 ++ List.replicate x.2 false

theorem run1_wire (c : Cfg) (h1 : 1 ≤ c.pre) (h2 : 1 ≤ c.post) (x : List UInt8 × Nat) (hx : Legal c x.1 ∧ x.2 < 8)
    (w : W) (hw : Ready c w) :
    ∃ w', run1 c w (wireBits c x) = (w', [x.1]) ∧ Ready c w' ∧ w'.inUse = w.inUse := by
  have hm : 1 ≤ c.maxRead := by have := hx.1.2.1; have := hx.1.2.2.1; omega
  obtain ⟨p, hp⟩ : ∃ p, c.pre = p + 1 := ⟨c.pre - 1, by omega⟩
  obtain ⟨q, hq⟩ : ∃ q, c.post = q + 1 := ⟨c.post - 1, by omega⟩
  obtain ⟨w1, e1, a1, u1⟩ := hw
  obtain ⟨w2, e2, a2, u2⟩ := run1_flags c hm p w1 a1
  obtain ⟨w3, e3, a3, u3⟩ := run1_body c x.1 hx.1 w2 a2
  obtain ⟨w4, e4, a4, u4⟩ := run1_flags c hm q w3 a3
  obtain ⟨w5, e5, a5, u5⟩ := run1_pad c hm w4 a4 x.2 hx.2
  refine ⟨w5, ?_, a5, by rw [u5, u4, u3, u2, u1]⟩
  have : wireBits c x = flag ++ (flags p ++ ((stuff 0 (msgLsb (body c x.1)) ++ flag) ++ (flags q ++ List.replicate x.2 false))) := by
    simp [wireBits, frameBits, hp, hq, flags_succ]
  rw [this, run1_append, e1]; simp only
  rw [run1_append, e2]; simp only
  rw [run1_append, e3]; simp only
  rw [run1_append, e4]; simp only
  rw [e5]; simp

theorem run1_wires (c : Cfg) (h1 : 1 ≤ c.pre) (h2 : 1 ≤ c.post) (xs : List (List UInt8 × Nat))
    (hx : ∀ x ∈ xs, Legal c x.1 ∧ x.2 < 8) : ∀ w, Ready c w →
    ∃ w', run1 c w (xs.flatMap (wireBits c)) = (w', xs.map Prod.fst) ∧ Ready c w' := by
  induction xs with
  | nil => intro w h; exact ⟨w, rfl, h⟩
  | cons x xs ih =>
    intro w h
    obtain ⟨w1, e1, a1, _⟩ := run1_wire c h1 h2 x (hx x (by simp)) w h
    obtain ⟨w2, e2, a2⟩ := ih (fun y hy => hx y (by simp [hy])) w1 a1
    exact ⟨w2, by rw [List.flatMap_cons, run1_append, e1]; simp [e2], a2⟩

/-- The receiver after allocation. -/
def w0 : W := { inUse := true, st := .first0 }

theorem ready_w0 (c : Cfg) : Ready c w0 := by
  refine ⟨⟨true, false, 0, 0, .inMsg, 0, 0, []⟩, ?_, ⟨rfl, rfl, rfl, rfl, rfl⟩, rfl⟩
  simp [run1, step1, flag, w0]

/-- What holds of the working message after any bits. -/
def WInv (c : Cfg) (w : W) : Prop :=
  match w.st with
  | .inMsg => w.bitPos < 8 ∧ w.cur.toNat < 2 ^ w.bitPos ∧ w.ones ≤ 5 ∧ w.rd.length ≤ c.maxRead
  | .postLast0 => w.rd.length ≤ c.maxRead
  | _ => w.rd = []

theorem step1_winv (c : Cfg) (w : W) (b : Bool) (h : WInv c w) : WInv c (step1 c w b).1 := by
  obtain ⟨iu, nw, un, on, st, cu, bp, rd⟩ := w
  cases st with
  | inMsg =>
    obtain ⟨h1, h2, h3, h4⟩ := h
    simp only at h1 h2 h3 h4
    obtain ⟨hb1, hb2⟩ := orBit_bits cu bp h1 h2 b
    simp only [step1]
    by_cases h5 : on = 5
    · simp only [h5, if_true]
      cases b
      · exact ⟨h1, h2, by simp, h4⟩
      · exact h4
    · simp only [h5, if_false]
      by_cases h7 : bp = 7
      · simp only [h7, if_true]
        split
        · rfl
        · refine ⟨by simp, by simp, ?_, by simp; omega⟩
          simp only; split <;> omega
      · simp only [h7, if_false]
        refine ⟨by simp only; omega, hb2, ?_, h4⟩
        simp only; split <;> omega
  | postLast0 =>
    simp only [step1]
    cases b
    · exact ⟨by simp, by simp, by simp, by simp⟩
    · rfl
  | last0 =>
    simp only [WInv] at h
    simp only [step1]
    cases b
    · exact ⟨by simp, by simp, by simp, by simp [h]⟩
    · simpa [WInv] using h
  | search0 => simp only [WInv] at h; simp only [step1]; cases b <;> simpa [WInv] using h
  | first0 => simp only [WInv] at h; simp only [step1]; cases b <;> simpa [WInv] using h
  | pre1 =>
    simp only [WInv] at h
    simp only [step1]
    cases b
    · simpa [WInv] using h
    · by_cases h6 : on + 1 = 6
      · simpa [WInv, h6] using h
      · have : ¬ on = 5 := by omega
        simpa [WInv, this] using h

theorem run1_winv (c : Cfg) (bits : List Bool) : ∀ w, WInv c w → WInv c (run1 c w bits).1 := by
  induction bits with
  | nil => intro w h; exact h
  | cons b bits ih => intro w h; exact ih _ (step1_winv c w b h)

/-- Looking for a flag with nothing collected. -/
theorem run1_flag_pre (c : Cfg) (w : W) (h : WInv c w) (hs : w.st = .search0 ∨ w.st = .first0 ∨ w.st = .pre1) :
    ∃ w', run1 c w flag = (w', []) ∧ AtFlag w' := by
  obtain ⟨iu, nw, un, on, st, cu, bp, rd⟩ := w
  rcases hs with rfl | rfl | rfl <;>
  · simp only [WInv] at h
    subst h
    simp [run1, step1, flag, AtFlag]

theorem run1_one_flag (c : Cfg) (w : W) (h : WInv c w) :
    AtFlag (run1 c w flag).1 ∨ (WInv c (run1 c w flag).1 ∧ (run1 c w flag).1.st = .first0) := by
  by_cases hs : w.st = .search0 ∨ w.st = .first0 ∨ w.st = .pre1
  · obtain ⟨w', e, a⟩ := run1_flag_pre c w h hs
    left; rw [e]; exact a
  by_cases hm : w.st = .inMsg
  · have h' := h
    simp only [WInv, hm] at h'
    obtain ⟨h1, h2, h3, h4⟩ := h'
    have hi : RInv w := ⟨hm, h1, h2⟩
    by_cases hl : ((rdBits w).length + 6) / 8 ≤ c.maxRead
    · obtain ⟨w1, w2, e, a, _⟩ := run1_flag c w hi h3 hl
      left; rw [e]; exact a
    · rw [rdBits_length hi] at hl
      have hfull : w.rd.length = c.maxRead := by omega
      have hb : 2 ≤ w.bitPos := by omega
      obtain ⟨iu, nw, un, on, st, cu, bp, rd⟩ := w
      simp only at hm h1 hfull hb h3
      subst hm
      have hge : c.maxRead ≤ rd.length := by omega
      by_cases h5 : on = 5
      · subst h5
        have : bp = 2 ∨ bp = 3 ∨ bp = 4 ∨ bp = 5 ∨ bp = 6 ∨ bp = 7 := by omega
        rcases this with rfl | rfl | rfl | rfl | rfl | rfl <;>
          simp [run1, step1, flag, AtFlag, WInv, hge]
      · have : bp = 2 ∨ bp = 3 ∨ bp = 4 ∨ bp = 5 ∨ bp = 6 ∨ bp = 7 := by omega
        rcases this with rfl | rfl | rfl | rfl | rfl | rfl <;>
          simp [run1, step1, flag, AtFlag, WInv, hge, h5]
  · left
    obtain ⟨iu, nw, un, on, st, cu, bp, rd⟩ := w
    cases st with
    | last0 => simp [run1, step1, flag, AtFlag]
    | postLast0 => simp [run1, step1, flag, AtFlag]
    | _ => simp at hs hm

/-- After two flags any receiver stands at a frame start. -/
theorem run1_two_flags (c : Cfg) (w : W) (h : WInv c w) : AtFlag (run1 c w (flag ++ flag)).1 := by
  rw [run1_append]
  simp only
  rcases run1_one_flag c w h with a | ⟨a, b⟩
  · obtain ⟨w1, w2, e, a', _⟩ := run1_flag c _ a.inv.1 (by have := a.2.1; omega) (by rw [a.inv.2]; simp)
    rw [e]; exact a'
  · obtain ⟨w', e, a'⟩ := run1_flag_pre c _ a (by simp [b])
    rw [e]; exact a'

/-! ### C22: the whole receiver -/

theorem bitLoop_none (c : Cfg) (n : Nat) : ∀ (f : Rx) (byte : UInt8) (i j nb : Nat), 0 < nb →
    ∃ nb', 0 < nb' ∧ bitLoop c none f byte i j nb n =
      some ((shiftBits byte n).foldl (fun f b => processBit c f b 0) f, nb') := by
  induction n with
  | zero => intro f byte i j nb h; exact ⟨nb, h, rfl⟩
  | succ n ih =>
    intro f byte i j nb h
    obtain ⟨nb', h', e⟩ := ih (processBit c f (byte &&& 1 == 1) 0) (byte >>> 1) i (j + 1) (nb + 1) (by omega)
    refine ⟨nb', h', ?_⟩
    rw [bitLoop, if_neg (by omega)]
    simp only [e, shiftBits, List.foldl_cons]

theorem byteLoop_none (c : Cfg) (buf : List UInt8) : ∀ (f : Rx) (i nb : Nat), 0 < nb →
    byteLoop c none f i nb buf = some ((msgLsb buf).foldl (fun f b => processBit c f b 0) f) := by
  induction buf with
  | nil => intro f i nb _; rfl
  | cons b buf ih =>
    intro f i nb h
    obtain ⟨nb', h', e⟩ := bitLoop_none c 8 f b i 0 nb h
    rw [byteLoop, if_neg (by omega), e]
    simp only [Option.bind_eq_bind, Option.bind_some]
    rw [ih _ _ _ h', shiftBits_eq, msgLsb_cons, List.foldl_append]

theorem rxBits_spec (c : Cfg) (bits : List Bool) : ∀ (f : Rx) (w : W), Single f w →
    Single (bits.foldl (fun f b => processBit c f b 0) f) (run1 c w bits).1 ∧
    SameQ (bits.foldl (fun f b => processBit c f b 0) f) ((run1 c w bits).2.foldl deliver f) := by
  induction bits with
  | nil => intro f w h; exact ⟨h, rfl, rfl, rfl⟩
  | cons b bits ih =>
    intro f w h
    obtain ⟨h1, h2⟩ := processBit_single c f w b h
    obtain ⟨h3, h4⟩ := ih _ _ h1
    refine ⟨h3, h4.trans ?_⟩
    have key : ∀ (ms : List (List UInt8)) (f g : Rx), SameQ f g → SameQ (ms.foldl deliver f) (ms.foldl deliver g) := by
      intro ms
      induction ms with
      | nil => intro f g h; exact h
      | cons m ms ih => intro f g h; exact ih _ _ (deliver_sameQ h m)
    simp only [run1]
    rw [List.foldl_append]
    apply key
    cases hm : (step1 c w b).2 with
    | none => rw [hm] at h2; exact h2
    | some m => rw [hm] at h2; exact h2

/-- What the user of a receiver has got: whole messages, and the part of the next. -/
structure Log where
  rx : Rx
  got : List (List UInt8) := []
  part : List UInt8 := []

/-- One call of `hdlc_ll_write` with a user taking `acc` bytes. -/
def Log.call (c : Cfg) (l : Log) (buf : List UInt8) (acc : Nat) : Option Log := do
  let (f, ev) ← llWrite c l.rx buf none none acc
  match ev with
  | none => some { l with rx := f }
  | some (d, true) => some { rx := f, got := l.got ++ [l.part ++ d], part := [] }
  | some (d, false) => some { l with rx := f, part := l.part ++ d }

def feed (c : Cfg) (l : Log) : List (List UInt8 × Nat) → Option Log
  | [] => some l
  | (buf, acc) :: rest => do
    let l ← l.call c buf acc
    feed c l rest

/-- The queue holds what was completed and not yet taken, while at most eight messages
were completed. -/
structure QInv (l : Log) (ms : List (List UInt8)) : Prop where
  cnt : l.rx.dcur + l.rx.dnum = ms.length
  max : ms.length ≤ 8
  len : l.rx.slots.length = 8
  got : l.got = ms.take l.rx.dcur
  slot : ∀ i, l.rx.dcur ≤ i → i < ms.length →
    l.rx.slots[i]? = some (ms.getD i [], if i = l.rx.dcur then l.part.length else 0)
  part : l.part = (ms.getD l.rx.dcur []).take l.part.length
  idle : l.rx.dnum = 0 → l.part = []

theorem deliver_qinv (l : Log) (ms : List (List UInt8)) (m : List UInt8) (h : QInv l ms) (h8 : ms.length < 8) :
    QInv { l with rx := deliver l.rx m } (ms ++ [m]) := by
  obtain ⟨h1, h2, h3, h4, h5, h6, h7⟩ := h
  have hlt : l.rx.dnum < 8 := by omega
  have hmod : (l.rx.dcur + l.rx.dnum) % 8 = ms.length := by omega
  constructor
  · simp [deliver, hlt]; omega
  · simp; omega
  · simp [deliver, hlt, h3]
  · simp only [deliver, hlt, if_true]
    rw [List.take_append_of_le_length (by omega)]; exact h4
  · intro i hi1 hi2
    simp only [deliver, hlt, if_true, hmod] at hi1 ⊢
    simp only [List.length_append, List.length_cons, List.length_nil] at hi2
    by_cases hi : i = ms.length
    · subst hi
      rw [List.getElem?_set_self (by omega)]
      congr 2
      · simp
      · split
        · rename_i hd
          have : l.part = [] := h7 (by omega)
          simp [this]
        · rfl
    · rw [List.getElem?_set_ne (by omega), h5 i hi1 (by omega)]
      congr 2
      simp [List.getD_eq_getElem?_getD, List.getElem?_append_left (show i < ms.length by omega)]
  · simp only [deliver, hlt, if_true]
    by_cases hd : l.rx.dnum = 0
    · simp [h7 hd]
    · rw [List.getD_eq_getElem?_getD, List.getElem?_append_left (by omega), ← List.getD_eq_getElem?_getD]
      exact h6
  · simp [deliver, hlt]

theorem delivers_qinv (new : List (List UInt8)) : ∀ (l : Log) (ms : List (List UInt8)), QInv l ms →
    ms.length + new.length ≤ 8 → QInv { l with rx := new.foldl deliver l.rx } (ms ++ new) := by
  induction new with
  | nil => intro l ms h _; simpa using h
  | cons m new ih =>
    intro l ms h h8
    simp only [List.length_cons] at h8
    have h1 := deliver_qinv l ms m h (by omega)
    have := ih _ _ h1 (by simp; omega)
    simpa using this

theorem qinv_sameQ {l : Log} {ms} {g : Rx} (h : QInv l ms) (hs : SameQ g l.rx) : QInv { l with rx := g } ms := by
  obtain ⟨s1, s2, s3⟩ := hs
  obtain ⟨h1, h2, h3, h4, h5, h6, h7⟩ := h
  constructor
  · simp only [s2, s3]; exact h1
  · exact h2
  · simp only [s1]; exact h3
  · simp only [s3]; exact h4
  · simp only [s1, s3]; exact h5
  · simp only [s3]; exact h6
  · simp only [s2]; exact h7

/-- Handing up keeps the invariant, and never fails while it holds. -/
theorem handUp_qinv (l : Log) (ms : List (List UInt8)) (acc : Nat) (h : QInv l ms) :
    ∃ f ev, handUp l.rx acc = some (f, ev) ∧ f.ws = l.rx.ws ∧ f.curW = l.rx.curW ∧
      QInv (match ev with
        | none => { l with rx := f }
        | some (d, true) => { rx := f, got := l.got ++ [l.part ++ d], part := [] }
        | some (d, false) => { l with rx := f, part := l.part ++ d }) ms ∧
      (acc ≥ (ms.getD l.rx.dcur []).length → 0 < l.rx.dnum → f.dcur = l.rx.dcur + 1) := by
  obtain ⟨h1, h2, h3, h4, h5, h6, h7⟩ := h
  by_cases hn : l.rx.dnum > 0
  · have hs := h5 l.rx.dcur (by omega) (by omega)
    rw [if_pos rfl] at hs
    have hget : ms.getD l.rx.dcur [] = ms[l.rx.dcur]'(by omega) := by simp [show l.rx.dcur < ms.length by omega]
    generalize hm : ms.getD l.rx.dcur [] = m at *
    have hple : l.part.length ≤ m.length := by
      have := congrArg List.length h6
      simp at this; omega
    simp only [handUp, if_pos hn, hs]
    by_cases hc : acc + l.part.length ≥ m.length
    · rw [if_pos hc]
      refine ⟨_, _, rfl, rfl, rfl, ?_, fun _ _ => rfl⟩
      constructor
      · simp only; omega
      · exact h2
      · simpa using h3
      · simp only
        rw [List.take_succ_eq_append_getElem (by omega), h4, ← hget]
        congr 2
        have := List.take_append_drop l.part.length m
        rwa [← h6] at this
      · intro i hi1 hi2
        simp only at hi1 ⊢
        rw [List.getElem?_set_ne (by omega), h5 i (by omega) hi2, if_neg (by omega)]
        simp
      · simp
      · simp
    · rw [if_neg hc]
      refine ⟨_, _, rfl, rfl, rfl, ?_, by intro h; omega⟩
      have hlen : (l.part ++ List.take acc (List.drop l.part.length m)).length = l.part.length + acc := by simp; omega
      constructor
      · exact h1
      · exact h2
      · simpa using h3
      · exact h4
      · intro i hi1 hi2
        simp only at hi1 ⊢
        by_cases hi : i = l.rx.dcur
        · subst hi
          rw [List.getElem?_set_self (by omega), if_pos rfl, hlen, hm]
        · rw [List.getElem?_set_ne (by omega), h5 i hi1 hi2, if_neg hi, if_neg hi]
      · simp only [hlen, hm]
        rw [List.take_add, ← h6]
      · simp only; intro h; omega
  · have hd : l.rx.dnum = 0 := by omega
    simp only [handUp, if_neg hn]
    exact ⟨_, _, rfl, rfl, rfl, ⟨h1, h2, h3, h4, h5, h6, h7⟩, by intro _ h; omega⟩

theorem byteLoop_bits (c : Cfg) (f : Rx) (buf : List UInt8) :
    byteLoop c none f 0 ((none : Option Nat).getD (buf.length * 8)) buf =
      some ((msgLsb buf).foldl (fun f b => processBit c f b 0) f) := by
  cases buf with
  | nil => rfl
  | cons b buf => exact byteLoop_none c _ f 0 _ (by simp)

theorem call_spec (c : Cfg) (l : Log) (ms : List (List UInt8)) (w : W) (buf : List UInt8) (acc : Nat) (hs : Single l.rx w)
    (hq : QInv l ms) (h8 : ms.length + (run1 c w (msgLsb buf)).2.length ≤ 8) :
    ∃ l', l.call c buf acc = some l' ∧ Single l'.rx (run1 c w (msgLsb buf)).1 ∧
      QInv l' (ms ++ (run1 c w (msgLsb buf)).2) := by
  obtain ⟨s1, s2⟩ := rxBits_spec c (msgLsb buf) l.rx w hs
  have q1 := delivers_qinv _ l ms hq h8
  have q2 := qinv_sameQ q1 s2
  obtain ⟨f, ev, e, hw, hc, q3, _⟩ := handUp_qinv _ _ acc q2
  simp only [Log.call, llWrite, byteLoop_bits, Option.bind_eq_bind, Option.bind_some]
  simp only at e q3 hw hc
  rw [e]
  have hs' : Single f (run1 c w (msgLsb buf)).1 := by
    obtain ⟨rest, a1, a2, a3, a4⟩ := s1
    exact ⟨rest, by rw [hw]; exact a1, a2, a3, by rw [hc]; exact a4⟩
  rcases ev with _ | ⟨d, b⟩
  · exact ⟨_, rfl, hs', q3⟩
  · cases b
    · exact ⟨_, rfl, hs', q3⟩
    · exact ⟨_, rfl, hs', q3⟩

theorem feed_spec (c : Cfg) (chunks : List (List UInt8 × Nat)) : ∀ (l : Log) (ms : List (List UInt8)) (w : W),
    Single l.rx w → QInv l ms → ms.length + (run1 c w (msgLsb (chunks.flatMap Prod.fst))).2.length ≤ 8 →
    ∃ l', feed c l chunks = some l' ∧ QInv l' (ms ++ (run1 c w (msgLsb (chunks.flatMap Prod.fst))).2) := by
  induction chunks with
  | nil => intro l ms w _ hq _; exact ⟨l, rfl, by simpa [run1] using hq⟩
  | cons x chunks ih =>
    intro l ms w hs hq h8
    obtain ⟨buf, acc⟩ := x
    simp only [List.flatMap_cons, msgLsb_append, run1_append, List.length_append] at h8 ⊢
    obtain ⟨l1, e1, s1, q1⟩ := call_spec c l ms w buf acc hs hq (by omega)
    obtain ⟨l2, e2, q2⟩ := ih l1 _ _ s1 q1 (by simp; omega)
    exact ⟨l2, by simp [feed, e1, e2], by simpa using q2⟩

theorem qinv_init (n : Nat) : QInv { rx := Rx.alloc n } [] :=
  ⟨rfl, by simp, rfl, by simp [Rx.alloc], by intro i _ h; simp at h, by simp, by simp⟩

theorem single_init (n : Nat) : Single (Rx.alloc n) w0 :=
  ⟨_, rfl, rfl, fun r hr => by simp [(List.eq_of_mem_replicate hr)], rfl⟩

/-- **C22** (partial: at most eight frames over the life of the filter, which is where the code
goes wrong, see below; certain bits).  Any legal frames with one or more flags around them, as
bits packed in bytes and cut in chunks anywhere, the user taking any amounts: no access outside
the queue, what the user has is a prefix of the frames, and all of them once nothing is pending. -/
theorem C22_delivers_partial (c : Cfg) (n : Nat) (h1 : 1 ≤ c.pre) (h2 : 1 ≤ c.post) (xs : List (List UInt8 × Nat))
    (hx : ∀ x ∈ xs, Legal c x.1 ∧ x.2 < 8) (h8 : xs.length ≤ 8) (chunks : List (List UInt8 × Nat))
    (hc : msgLsb (chunks.flatMap Prod.fst) = xs.flatMap (wireBits c)) :
    ∃ l, feed c { rx := Rx.alloc n } chunks = some l ∧ l.got <+: xs.map Prod.fst ∧
      (l.rx.dnum = 0 → l.got = xs.map Prod.fst) := by
  obtain ⟨w', e, _⟩ := run1_wires c h1 h2 xs hx w0 (ready_w0 c)
  obtain ⟨l, e2, q⟩ := feed_spec c chunks { rx := Rx.alloc n } [] w0 (single_init n) (qinv_init n) (by
    rw [hc, e]; simpa using h8)
  rw [hc, e, List.nil_append] at q
  refine ⟨l, e2, by rw [q.got]; exact List.take_prefix _ _, ?_⟩
  intro hd
  have := q.cnt
  rw [q.got, List.take_of_length_le (by omega)]

/-- **C22, resynchronisation** (partial as above).  After any noise at all, legal frames with
two or more flags before them are delivered after whatever the noise amounted to. -/
theorem C22_after_noise_partial (c : Cfg) (n : Nat) (h1 : 2 ≤ c.pre) (h2 : 1 ≤ c.post) (noise : List Bool)
    (x : List UInt8 × Nat) (xs : List (List UInt8 × Nat)) (hx : ∀ y ∈ x :: xs, Legal c y.1 ∧ y.2 < 8)
    (chunks : List (List UInt8 × Nat))
    (hc : msgLsb (chunks.flatMap Prod.fst) = noise ++ (x :: xs).flatMap (wireBits c)) :
    ∃ pre, pre.length + (x :: xs).length ≤ 8 →
      ∃ l, feed c { rx := Rx.alloc n } chunks = some l ∧ l.got <+: pre ++ (x :: xs).map Prod.fst ∧
        (l.rx.dnum = 0 → l.got = pre ++ (x :: xs).map Prod.fst) := by
  have hm : 1 ≤ c.maxRead := by
    have := (hx x (by simp)).1; have h3 := this.2.1; have h4 := this.2.2.1; omega
  have hinv := run1_winv c noise w0 rfl
  have hat := run1_two_flags c _ hinv
  obtain ⟨p, hp⟩ : ∃ p, c.pre = p + 2 := ⟨c.pre - 2, by omega⟩
  obtain ⟨q, hq⟩ : ∃ q, c.post = q + 1 := ⟨c.post - 1, by omega⟩
  obtain ⟨hxl, hx8⟩ := hx x (by simp)
  obtain ⟨w2, e2, a2, u2⟩ := run1_flags c hm p _ hat
  obtain ⟨w3, e3, a3, u3⟩ := run1_body c x.1 hxl w2 a2
  obtain ⟨w4, e4, a4, u4⟩ := run1_flags c hm q w3 a3
  obtain ⟨w5, e5, a5, u5⟩ := run1_pad c hm w4 a4 x.2 hx8
  obtain ⟨w6, e6, _⟩ := run1_wires c (by omega) h2 xs (fun y hy => hx y (by simp [hy])) w5 a5
  have hw : wireBits c x = (flag ++ flag) ++ (flags p ++ ((stuff 0 (msgLsb (body c x.1)) ++ flag) ++
      (flags q ++ List.replicate x.2 false))) := by
    simp [wireBits, frameBits, hp, hq, flags_succ]
  have hr : (run1 c w0 (noise ++ (x :: xs).flatMap (wireBits c))).2 =
      ((run1 c w0 noise).2 ++ (run1 c (run1 c w0 noise).1 (flag ++ flag)).2) ++ (x :: xs).map Prod.fst := by
    have ex : run1 c (run1 c w0 noise).1 (wireBits c x) =
        (w5, (run1 c (run1 c w0 noise).1 (flag ++ flag)).2 ++ [x.1]) := by
      rw [hw, run1_append (b := flags p ++ _), run1_append (b := _ ++ (flags q ++ _)), e2]
      simp only
      rw [run1_append (b := flags q ++ _), e3]; simp only
      rw [run1_append, e4]; simp only
      rw [e5]; simp
    rw [run1_append, List.flatMap_cons, run1_append, ex]
    simp only
    rw [e6]; simp
  refine ⟨(run1 c w0 noise).2 ++ (run1 c (run1 c w0 noise).1 (flag ++ flag)).2, fun h8 => ?_⟩
  obtain ⟨l, e7, q⟩ := feed_spec c chunks { rx := Rx.alloc n } [] w0 (single_init n) (qinv_init n) (by
    rw [hc, hr]; simp at h8 ⊢; omega)
  rw [hc, hr, List.nil_append] at q
  refine ⟨l, e7, by rw [q.got]; exact List.take_prefix _ _, ?_⟩
  intro hd
  have := q.cnt
  rw [q.got, List.take_of_length_le (by omega)]

/-! The ninth message -/

theorem feed_each (c : Cfg) (h1 : 1 ≤ c.pre) (h2 : 1 ≤ c.post) (xs : List (List UInt8 × Nat))
    (hx : ∀ x ∈ xs, Legal c x.1 ∧ x.2 < 8) :
    ∀ (chunks : List (List UInt8 × Nat)) (l : Log) (w : W), Single l.rx w → Ready c w → l.rx.dnum = 0 →
      l.rx.slots.length = 8 → l.rx.dcur ≤ 8 → 8 < l.rx.dcur + xs.length → chunks.map (fun ch => msgLsb ch.1) = xs.map (wireBits c) →
      (∀ ch ∈ chunks, ∀ x ∈ xs, x.1.length ≤ ch.2) → feed c l chunks = none := by
  induction xs with
  | nil => intro chunks l w _ _ _ _ h8 h9; simp at h9; omega
  | cons x xs ih =>
    intro chunks l w hs hr hd hsl h8 h9 hch hacc
    cases chunks with
    | nil => simp at hch
    | cons ch chunks =>
      obtain ⟨buf, acc⟩ := ch
      simp only [List.map_cons, List.cons.injEq] at hch
      obtain ⟨w1, e1, r1, _⟩ := run1_wire c h1 h2 x (hx x (by simp)) w hr
      obtain ⟨s1, s2⟩ := rxBits_spec c (msgLsb buf) l.rx w hs
      rw [hch.1] at s1 s2
      rw [e1] at s1 s2
      simp only [List.foldl_cons, List.foldl_nil] at s2
      have hdel : deliver l.rx x.1 = { l.rx with slots := l.rx.slots.set (l.rx.dcur % 8) (x.1, 0), dnum := 1 } := by
        simp [deliver, hd]
      rw [hdel] at s2
      obtain ⟨q1, q2, q3⟩ := s2
      simp only at q1 q2 q3
      simp only [feed, Log.call, llWrite, byteLoop_bits, Option.bind_eq_bind, Option.bind_some]
      rw [hch.1]
      generalize (wireBits c x).foldl (fun f b => processBit c f b 0) l.rx = g at *
      by_cases hl : l.rx.dcur = 8
      · have : g.slots[g.dcur]? = none := by rw [q1, q3, hl]; simp [hsl]
        simp [handUp, q2, this]
      · have hmod : l.rx.dcur % 8 = l.rx.dcur := by omega
        have : g.slots[g.dcur]? = some (x.1, 0) := by rw [q1, q3, hmod]; exact List.getElem?_set_self (by omega)
        have ha := hacc (buf, acc) (by simp) x (by simp)
        simp only at ha
        simp only [handUp, q2, this]
        rw [if_pos (by omega), if_pos (by omega)]
        simp only [Option.bind_some]
        obtain ⟨rest, a1, a2, a3, a4⟩ := s1
        apply ih (fun y hy => hx y (by simp [hy])) chunks _ w1 ⟨rest, a1, a2, a3, a4⟩ r1
        · rfl
        · simp only [List.length_set, q1]; exact hsl
        · simp only [q3]; omega
        · simp only [q3]; simp only [List.length_cons] at h9; omega
        · exact hch.2
        · intro ch hc y hy; exact hacc ch (by simp [hc]) y (by simp [hy])

/-- **C22 is violated**, for any configuration and any legal frames: the receiver reads outside
`delivermsgs` at the ninth frame of its life, however slowly the frames come.
(`curr_delivermsg` is never taken modulo 8, :853.) -/
theorem C22_ninth_frame_violated (c : Cfg) (n : Nat) (h1 : 1 ≤ c.pre) (h2 : 1 ≤ c.post) (xs : List (List UInt8 × Nat))
    (hx : ∀ x ∈ xs, Legal c x.1 ∧ x.2 < 8) (h9 : 9 ≤ xs.length) (chunks : List (List UInt8 × Nat))
    (hc : chunks.map (fun ch => msgLsb ch.1) = xs.map (wireBits c)) (hacc : ∀ ch ∈ chunks, ∀ x ∈ xs, x.1.length ≤ ch.2) :
    feed c { rx := Rx.alloc n } chunks = none := by
  apply feed_each c h1 h2 xs hx chunks _ w0 (single_init n) (ready_w0 c) rfl rfl
  · simp [Rx.alloc]
  · simp [Rx.alloc]; omega
  · exact hc
  · exact hacc

/-- A configuration for the examples: default but for short pre- and postamble. -/
def exCfg : Cfg := ⟨258, 256, 1, 1, true, false, fun _ => true, 20⟩

/-- Two frames cut in the middle of a byte boundary, the user taking one byte first. -/
example : (feed exCfg { rx := Rx.alloc 4 } [([0x7e, 0xdf, 0xf7], 9), ([0x7d, 0x80, 0x70, 0xe0, 0x07], 1), ([], 9),
    ([0x7e, 0xdf, 0xf7, 0x7d, 0x80, 0x70, 0xe0, 0x07], 9)]).map (fun l => (l.got, l.part)) =
    some ([[0xff, 0xff, 0x0f], [0xff, 0xff, 0x0f]], []) := by decide +kernel

/-- The ninth frame. -/
example : (feed exCfg { rx := Rx.alloc 4 } (List.replicate 8 ([0x7e, 0xdf, 0xf7, 0x7d, 0x80, 0x70, 0xe0, 0x07], 9))).map
    (fun l => l.got.length) = some 8 ∧
    (feed exCfg { rx := Rx.alloc 4 } (List.replicate 9 ([0x7e, 0xdf, 0xf7, 0x7d, 0x80, 0x70, 0xe0, 0x07], 9))).isNone := by
  decide +kernel

/-! ### C23 -/

/-- **C23, exactly when**: encoding stays inside a buffer iff the bits with the flags leave at
least one byte of it not completely filled. -/
theorem C23_fits_iff (c : Cfg) (buf d : List UInt8) :
    (encode c buf d).isSome ↔ (frameBits c d).length / 8 < buf.length := by
  obtain ⟨h1, h2⟩ := encode_spec c buf d
  constructor
  · intro h
    by_cases hl : (frameBits c d).length / 8 < buf.length
    · exact hl
    · rw [h2 (by omega)] at h; simp at h
  · intro h
    obtain ⟨o, e, _⟩ := h1 h
    simp [e]

theorem stuff_le (bits : List Bool) : ∀ k, k ≤ 5 →
    bits.length ≤ (stuff k bits).length ∧
    5 * ((stuff k bits).length - bits.length) + stuffEnd k bits ≤ k + bits.length := by
  induction bits with
  | nil => intro k _; simp [stuff, stuffEnd]
  | cons b bits ih =>
    intro k hk
    by_cases h5 : k = 5
    · simp only [stuff, stuffEnd, h5, if_true, List.length_cons]
      have := ih (if b then 1 else 0) (by split <;> omega)
      have hb : (if b then 1 else 0) ≤ 1 := by split <;> omega
      generalize (if b then 1 else 0) = j at *
      omega
    · simp only [stuff, stuffEnd, h5, if_false, List.length_cons]
      have := ih (if b then k + 1 else 0) (by split <;> omega)
      have hb : (if b then k + 1 else 0) ≤ k + 1 := by split <;> omega
      generalize (if b then k + 1 else 0) = j at *
      omega

theorem body_length (c : Cfg) (d : List UInt8) : (body c d).length = d.length + (if c.doCrc then 2 else 0) := by
  unfold body hdlcFrame; split <;> simp

/-- **C23** (partial: for a configuration without preamble and postamble, the only thing the
buffer size was computed for).  No accepted frame leaves the buffer. -/
theorem C23_no_flags_partial (c : Cfg) (h1 : c.pre = 0) (h2 : c.post = 0) (d : List UInt8) (hd : d.length ≤ c.maxWrite)
    (buf : List UInt8) (hb : buf.length = wrCap c) : (encode c buf d).isSome := by
  rw [C23_fits_iff, hb]
  have hs := stuff_le (msgLsb (body c d)) 0 (by omega)
  have hl := body_length c d
  simp only [frameBits, h1, h2, flags, List.replicate_zero, List.flatten_nil, List.nil_append, List.append_nil]
  simp only [msgLsb_length, Nat.zero_add] at hs
  unfold wrCap
  simp only []
  generalize (if c.doCrc then 2 else 0) = k at *
  omega

theorem stuff_ones (n : Nat) : ∀ k, k ≤ 5 →
    5 * ((stuff k (List.replicate n true)).length - n) + stuffEnd k (List.replicate n true) = k + n ∧
    n ≤ (stuff k (List.replicate n true)).length := by
  induction n with
  | zero => intro k _; simp [stuff, stuffEnd]
  | succ n ih =>
    intro k hk
    by_cases h5 : k = 5
    · have := ih 1 (by omega)
      simp only [List.replicate_succ, stuff, stuffEnd, h5, if_true, List.length_cons]
      omega
    · have := ih (k + 1) (by omega)
      simp only [List.replicate_succ, stuff, stuffEnd, h5, if_true, if_false, List.length_cons]
      omega

theorem msgLsb_ff (n : Nat) : msgLsb (List.replicate n 0xff) = List.replicate (8 * n) true := by
  induction n with
  | zero => rfl
  | succ n ih =>
    rw [List.replicate_succ, msgLsb_cons, ih, Nat.mul_add, Nat.add_comm, ← List.replicate_append_replicate]
    congr 1

/-- **C23 is violated** with the default preamble and postamble (25 and 2), for every maximum
write size: a frame of that many ff bytes is accepted and runs out of the buffer. -/
theorem C23_ff_overflow_violated (c : Cfg) (h1 : c.pre = 25) (h2 : c.post = 2) (h3 : c.doCrc = true)
    (buf : List UInt8) (hb : buf.length = wrCap c) : encode c buf (List.replicate c.maxWrite 0xff) = none := by
  obtain ⟨_, e⟩ := encode_spec c buf (List.replicate c.maxWrite 0xff)
  apply e
  rw [hb]
  simp only [frameBits, h1, h2, body, h3, if_true, hdlcFrame, msgLsb_append, msgLsb_ff, List.length_append, flags_length]
  rw [(stuff_append _ _ _).1, List.length_append]
  have hs := stuff_ones (8 * c.maxWrite) 0 (by omega)
  have he := stuffEnd_le (List.replicate (8 * c.maxWrite) true) 0 (by omega)
  have h16 := (stuff_le (msgLsb [(UInt16.toUInt8 (ccitt 0xffff (List.replicate c.maxWrite 0xff) ^^^ 0xffff &&& 0xff)),
    (UInt16.toUInt8 ((ccitt 0xffff (List.replicate c.maxWrite 0xff) ^^^ 0xffff) >>> 8 &&& 0xff))])
    (stuffEnd 0 (List.replicate (8 * c.maxWrite) true)) he).1
  simp only [msgLsb_length, List.length_cons, List.length_nil] at h16
  simp only [wrCap, h3, if_true]
  generalize (stuff 0 (List.replicate (8 * c.maxWrite) true)).length = a at *
  generalize stuffEnd 0 (List.replicate (8 * c.maxWrite) true) = b at *
  omega

/-- **C23 is violated** for small write sizes whatever the frame contains. -/
theorem C23_any_content_overflow_violated (c : Cfg) (h1 : c.pre = 25) (h2 : c.post = 2) (h3 : c.doCrc = true)
    (hm : c.maxWrite ≤ 128) (d : List UInt8) (hd : d.length = c.maxWrite) (buf : List UInt8) (hb : buf.length = wrCap c) :
    encode c buf d = none := by
  obtain ⟨_, e⟩ := encode_spec c buf d
  apply e
  have hs := (stuff_le (msgLsb (body c d)) 0 (by omega)).1
  have hl := body_length c d
  rw [h3, if_pos rfl] at hl
  rw [hb]
  simp only [frameBits, h1, h2, List.length_append, flags_length]
  simp only [msgLsb_length] at hs
  simp only [wrCap, h3, if_true]
  omega

/-- With short pre- and postamble: seven bytes of ff do not fit, seven zero bytes do. -/
example : wrCap ⟨9, 7, 1, 1, true, false, fun _ => true, 20⟩ = 12 ∧
    (encode ⟨9, 7, 1, 1, true, false, fun _ => true, 20⟩ (List.replicate 12 0) (List.replicate 7 0xff)).isNone ∧
    (encode ⟨9, 7, 1, 1, true, false, fun _ => true, 20⟩ (List.replicate 12 0) (List.replicate 7 0)).isSome := by
  decide +kernel

end Gensio.Hdlc
