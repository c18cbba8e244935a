import Verif.Model.Hdlc
import Verif.Lemmas.Crc
/-!
# Bits of bytes, and the HDLC encoder as a bit emitter
-/
namespace Gensio.Hdlc
open Gensio.Crc

/-! ### Bits -/

@[simp] theorem msgLsb_nil : msgLsb [] = [] := rfl
@[simp] theorem msgLsb_cons (b : UInt8) (m : List UInt8) : msgLsb (b :: m) = lsbBits 8 b.toNat ++ msgLsb m := rfl
theorem msgLsb_append (a b : List UInt8) : msgLsb (a ++ b) = msgLsb a ++ msgLsb b := by simp [msgLsb]
@[simp] theorem msgLsb_length (m : List UInt8) : (msgLsb m).length = 8 * m.length := by
  induction m with
  | nil => rfl
  | cons b m ih => simp [ih]; omega

theorem msgLsb_inj (a : List UInt8) : ∀ b, msgLsb a = msgLsb b → a = b := by
  induction a with
  | nil =>
    intro b h
    have := congrArg List.length h
    simp at this
    exact (List.eq_nil_of_length_eq_zero (by omega)).symm
  | cons x a ih =>
    intro b h
    cases b with
    | nil => have := congrArg List.length h; simp at this
    | cons y b =>
      simp only [msgLsb_cons] at h
      obtain ⟨h1, h2⟩ := List.append_inj h (by simp)
      have := bits_inj_lsb 8 _ _ x.toNat_lt y.toNat_lt h1
      rw [ih b h2, UInt8.toNat_inj.mp this]

/-- A byte holding the bits below `n` and nothing above. -/
theorem orBit_bits (v : UInt8) (n : Nat) (hn : n < 8) (hv : v.toNat < 2 ^ n) (bit : Bool) :
    (lsbBits 8 (v ||| ((if bit then 1 else 0) <<< UInt8.ofNat n)).toNat).take (n + 1) =
      (lsbBits 8 v.toNat).take n ++ [bit] ∧
    (v ||| ((if bit then 1 else 0) <<< UInt8.ofNat n)).toNat < 2 ^ (n + 1) := by
  have h : ∀ (n : Fin 8) (bit : Bool) (v : Fin 256), v.val < 2 ^ n.val →
      (lsbBits 8 (UInt8.ofNat v.val ||| ((if bit then 1 else 0) <<< UInt8.ofNat n.val)).toNat).take (n.val + 1) =
        (lsbBits 8 v.val).take n.val ++ [bit] ∧
      (UInt8.ofNat v.val ||| ((if bit then 1 else 0) <<< UInt8.ofNat n.val)).toNat < 2 ^ (n.val + 1) := by decide +kernel
  have := h ⟨n, hn⟩ bit ⟨v.toNat, v.toNat_lt⟩ hv
  simpa using this

theorem take_bits_high (v : UInt8) (n : Nat) (hn : n < 8) (hv : v.toNat < 2 ^ n) :
    lsbBits 8 v.toNat = (lsbBits 8 v.toNat).take n ++ List.replicate (8 - n) false := by
  have h : ∀ (n : Fin 8) (v : Fin 256), v.val < 2 ^ n.val →
      lsbBits 8 v.val = (lsbBits 8 v.val).take n.val ++ List.replicate (8 - n.val) false := by decide +kernel
  simpa using h ⟨n, hn⟩ ⟨v.toNat, v.toNat_lt⟩ hv

/-- The bits of a byte as taken by shifting. -/
def shiftBits (byte : UInt8) : Nat → List Bool
  | 0 => []
  | n + 1 => (byte &&& 1 == 1) :: shiftBits (byte >>> 1) n

theorem shiftBits_eq (b : UInt8) : shiftBits b 8 = lsbBits 8 b.toNat := by
  have h : ∀ v : Fin 256, shiftBits (UInt8.ofNat v.val) 8 = lsbBits 8 v.val := by decide +kernel
  simpa using h ⟨b.toNat, b.toNat_lt⟩

/-! ### Stuffing -/

/-- Insert a zero before the bit that follows five ones; `k` ones came just before. -/
def stuff : Nat → List Bool → List Bool
  | _, [] => []
  | k, b :: bs => if k = 5 then false :: b :: stuff (if b then 1 else 0) bs
    else b :: stuff (if b then k + 1 else 0) bs

/-- Number of ones at the end of the stuffed bits. -/
def stuffEnd : Nat → List Bool → Nat
  | k, [] => k
  | k, b :: bs => if k = 5 then stuffEnd (if b then 1 else 0) bs else stuffEnd (if b then k + 1 else 0) bs

theorem stuff_append (a : List Bool) : ∀ (k : Nat) (b : List Bool),
    stuff k (a ++ b) = stuff k a ++ stuff (stuffEnd k a) b ∧ stuffEnd k (a ++ b) = stuffEnd (stuffEnd k a) b := by
  induction a with
  | nil => intro k b; simp [stuff, stuffEnd]
  | cons x a ih => intro k b; simp only [List.cons_append, stuff, stuffEnd]; split <;> simp [ih]

theorem stuffEnd_le (a : List Bool) : ∀ k, k ≤ 5 → stuffEnd k a ≤ 5 := by
  induction a with
  | nil => intro k h; exact h
  | cons x a ih =>
    intro k h
    simp only [stuffEnd]
    split
    · apply ih; cases x <;> simp
    · apply ih; cases x <;> simp; omega

/-! ### The output buffer -/

/-- The bits put in the buffer so far. -/
def outBits (o : Out) : List Bool :=
  msgLsb (o.buf.take o.pos) ++ (lsbBits 8 (o.buf.getD o.pos 0).toNat).take o.bitPos

def OInv (o : Out) : Prop := o.pos < o.buf.length ∧ o.bitPos < 8 ∧ (o.buf.getD o.pos 0).toNat < 2 ^ o.bitPos

def osize (o : Out) : Nat := 8 * o.pos + o.bitPos

theorem outBits_length {o : Out} (h : OInv o) : (outBits o).length = osize o := by
  obtain ⟨h1, h2, _⟩ := h
  simp [outBits, osize]; omega

theorem addBit_spec (o : Out) (b : Bool) (h : OInv o) :
    ((osize o + 1) / 8 < o.buf.length →
      ∃ o', addBit o b = some o' ∧ OInv o' ∧ outBits o' = outBits o ++ [b] ∧ o'.buf.length = o.buf.length ∧
        osize o' = osize o + 1) ∧
    (o.buf.length ≤ (osize o + 1) / 8 → addBit o b = none) := by
  obtain ⟨h1, h2, h3⟩ := h
  have hget : o.buf[o.pos]? = some (o.buf.getD o.pos 0) := by simp [h1]
  obtain ⟨hb1, hb2⟩ := orBit_bits (o.buf.getD o.pos 0) o.bitPos h2 h3 b
  generalize hv : o.buf.getD o.pos 0 = v at *
  simp only [addBit, hget]
  by_cases hc : o.bitPos + 1 ≥ 8
  · have h7 : o.bitPos = 7 := by omega
    simp only [hc, if_true, List.length_set, osize]
    constructor
    · intro hl
      have hl' : o.pos + 1 < o.buf.length := by omega
      refine ⟨_, if_pos hl', ⟨by simpa using hl', by simp, ?_⟩, ?_, by simp, by simp; omega⟩
      · simp [hl']
      · have : lsbBits 8 (v ||| ((if b then 1 else 0) <<< UInt8.ofNat o.bitPos)).toNat =
            (lsbBits 8 v.toNat).take o.bitPos ++ [b] := by
          rw [← hb1, List.take_of_length_le (by simp; omega)]
        simp only [outBits, List.take_zero, List.append_nil, hv]
        rw [List.take_set_of_le (by omega), List.take_succ_eq_append_getElem (by simpa using h1), msgLsb_append,
          List.getElem_set_self, List.take_set_of_le (by omega)]
        rw [msgLsb_cons, this]; simp
    · intro hl
      rw [if_neg (by omega)]
  · simp only [hc, if_false, osize]
    constructor
    · intro _
      refine ⟨_, rfl, ⟨by simpa using h1, by simp; omega, ?_⟩, ?_, by simp, by simp; omega⟩
      · simpa [h1] using hb2
      · simp only [outBits, hv]
        rw [List.take_set_of_le (by omega)]
        simp only [List.getD_eq_getElem?_getD, List.getElem?_set_self h1, Option.getD_some]
        rw [hb1, List.append_assoc]
    · intro hl; omega

/-- Emit a list of bits. -/
def emit (o : Out) (bits : List Bool) : Option Out := bits.foldlM addBit o

theorem emit_cons (o : Out) (b : Bool) (bits) : emit o (b :: bits) = (addBit o b).bind fun o => emit o bits := by
  simp [emit, List.foldlM_cons]

theorem emit_append (a : List Bool) : ∀ (o : Out) (b), emit o (a ++ b) = (emit o a).bind fun o => emit o b := by
  induction a with
  | nil => intro o b; simp [emit]
  | cons x a ih => intro o b; simp [emit_cons, ih, Option.bind_assoc]

theorem emit_spec (bits : List Bool) : ∀ (o : Out), OInv o →
    ((osize o + bits.length) / 8 < o.buf.length →
      ∃ o', emit o bits = some o' ∧ OInv o' ∧ outBits o' = outBits o ++ bits ∧ o'.buf.length = o.buf.length) ∧
    (o.buf.length ≤ (osize o + bits.length) / 8 → emit o bits = none) := by
  induction bits with
  | nil =>
    intro o h
    refine ⟨fun _ => ⟨o, rfl, h, by simp, rfl⟩, ?_⟩
    intro hl
    have := h.1; have := h.2.1
    simp [osize] at hl; omega
  | cons b bits ih =>
    intro o h
    obtain ⟨h1, h2⟩ := addBit_spec o b h
    by_cases hc : (osize o + 1) / 8 < o.buf.length
    · obtain ⟨o', e, hi, hb, hlen, hs⟩ := h1 hc
      obtain ⟨i1, i2⟩ := ih o' hi
      rw [hlen, hs] at i1 i2
      rw [emit_cons, e, Option.bind_some, List.length_cons]
      constructor
      · intro hl
        obtain ⟨o2, e2, hi2, hb2, hl2⟩ := i1 (by rw [Nat.add_assoc, Nat.add_comm 1]; exact hl)
        exact ⟨o2, e2, hi2, by rw [hb2, hb]; simp, hl2⟩
      · intro hl
        exact i2 (by rw [Nat.add_assoc, Nat.add_comm 1]; exact hl)
    · constructor
      · intro hl; simp at hl; omega
      · intro _; rw [emit_cons, h2 (by omega)]; rfl

theorem addByteLoop_emit (n : Nat) : ∀ (o : Out) (k : Nat) (byte : UInt8),
    addByteLoop o k byte n =
      (emit o (stuff k (shiftBits byte n))).map fun o => (o, stuffEnd k (shiftBits byte n)) := by
  induction n with
  | zero => intro o k byte; simp [addByteLoop, shiftBits, stuff, stuffEnd, emit]
  | succ n ih =>
    intro o k byte
    simp only [addByteLoop, shiftBits, stuff, stuffEnd, stuffBit]
    split
    · rw [emit_cons]
      cases addBit o false with
      | none => simp
      | some o1 =>
        simp only [Option.map_some, Option.bind_eq_bind, Option.bind_some, emit_cons]
        cases addBit o1 (byte &&& 1 == 1) with
        | none => simp
        | some o2 => simp only [Option.bind_some, ih, Nat.zero_add]
    · simp only [Option.bind_eq_bind, Option.bind_some, emit_cons]
      cases addBit o (byte &&& 1 == 1) with
      | none => simp
      | some o2 => simp only [Option.bind_some, ih]

theorem addBytes_emit (bs : List UInt8) : ∀ (o : Out) (k : Nat),
    addBytes o k bs = (emit o (stuff k (msgLsb bs))).map fun o => (o, stuffEnd k (msgLsb bs)) := by
  induction bs with
  | nil => intro o k; simp [addBytes, stuff, stuffEnd, emit]
  | cons b bs ih =>
    intro o k
    simp only [addBytes, addByteLoop_emit, shiftBits_eq, msgLsb_cons]
    obtain ⟨h1, h2⟩ := stuff_append (lsbBits 8 b.toNat) k (msgLsb bs)
    rw [h1, h2, emit_append]
    cases emit o (stuff k (lsbBits 8 b.toNat)) with
    | none => simp
    | some o1 => simp only [Option.map_some, Option.bind_eq_bind, Option.bind_some, ih]

theorem addByteNs_emit (n : Nat) : ∀ (o : Out) (byte : UInt8), addByteNs o byte n = emit o (shiftBits byte n) := by
  induction n with
  | zero => intro o byte; simp [addByteNs, shiftBits, emit]
  | succ n ih => intro o byte; simp [addByteNs, shiftBits, emit_cons, ih]

/-! ### Frames on the line -/

/-- The flag 01111110. -/
def flag : List Bool := [false, true, true, true, true, true, true, false]
def flags (n : Nat) : List Bool := (List.replicate n flag).flatten

@[simp] theorem flags_length (n : Nat) : (flags n).length = 8 * n := by
  simp [flags, flag, Nat.mul_comm]
theorem flags_succ (n : Nat) : flags (n + 1) = flag ++ flags n := by simp [flags, List.replicate_succ]

theorem msgLsb_flags (n : Nat) : msgLsb (List.replicate n 0x7e) = flags n := by
  induction n with
  | zero => rfl
  | succ n ih =>
    rw [List.replicate_succ, msgLsb_cons, ih, flags_succ]
    congr 1

theorem addFlags_emit (n : Nat) : ∀ o : Out, addFlags o n = emit o (flags n) := by
  induction n with
  | zero => intro o; simp [addFlags, flags, emit]
  | succ n ih =>
    intro o
    have : shiftBits 0x7e 8 = flag := by decide
    simp [addFlags, addByteNs_emit, this, flags_succ, emit_append, ih]

theorem preLoop_spec (n : Nat) : ∀ (buf : List UInt8) (pos : Nat),
    preLoop buf pos n = if pos + n ≤ buf.length ∨ n = 0 then
      some (buf.take pos ++ List.replicate n 0x7e ++ buf.drop (pos + n)) else none := by
  induction n with
  | zero => intro buf pos; simp [preLoop]
  | succ n ih =>
    intro buf pos
    simp only [preLoop, setAt]
    by_cases h : pos < buf.length
    · simp only [h, if_true, Option.bind_eq_bind, Option.bind_some, ih, List.length_set]
      by_cases h2 : pos + (n + 1) ≤ buf.length
      · rw [if_pos (by left; omega), if_pos (by left; omega)]
        congr 1
        rw [List.take_succ_eq_append_getElem (by simpa using h), List.getElem_set_self, List.take_set_of_le (by omega),
          List.drop_set_of_lt (by omega), List.replicate_succ,
          show pos + 1 + n = pos + (n + 1) by omega]
        simp
      · rw [if_neg (by omega), if_neg (by omega)]
    · simp [h]; omega

/-- The bits of a frame as sent. -/
def frameBits (c : Cfg) (d : List UInt8) : List Bool :=
  flags c.pre ++ stuff 0 (msgLsb (body c d)) ++ flags c.post

theorem encode_spec (c : Cfg) (buf d : List UInt8) :
    ((frameBits c d).length / 8 < buf.length →
      ∃ o, encode c buf d = some o ∧ OInv o ∧ outBits o = frameBits c d ∧ o.buf.length = buf.length) ∧
    (buf.length ≤ (frameBits c d).length / 8 → encode c buf d = none) := by
  have hlen : (frameBits c d).length = 8 * c.pre + (stuff 0 (msgLsb (body c d))).length + 8 * c.post := by
    simp [frameBits, Nat.add_assoc]
  rw [hlen]
  simp only [encode, preLoop_spec, setAt]
  by_cases hp : c.pre < buf.length
  · simp only [Nat.zero_add]
    rw [if_pos (by left; omega)]
    generalize hb : List.take 0 buf ++ List.replicate c.pre 0x7e ++ List.drop c.pre buf = b1
    have hl1 : b1.length = buf.length := by rw [← hb]; simp; omega
    simp only [Option.bind_eq_bind, Option.bind_some, hl1, hp, if_true]
    have hinv : OInv ⟨b1.set c.pre 0, c.pre, 0⟩ := by
      refine ⟨by simpa [hl1] using hp, by simp, ?_⟩
      simp [hl1, hp]
    have hbits : outBits ⟨b1.set c.pre 0, c.pre, 0⟩ = flags c.pre := by
      simp only [outBits, List.take_zero, List.append_nil]
      rw [List.take_set_of_le (by omega), ← msgLsb_flags, ← hb]
      simp
    have hs : osize ⟨b1.set c.pre 0, c.pre, 0⟩ = 8 * c.pre := by simp [osize]
    generalize hoo : (⟨b1.set c.pre 0, c.pre, 0⟩ : Out) = o1 at *
    have hbl : o1.buf.length = buf.length := by rw [← hoo]; simp [hl1]
    rw [addBytes_emit]
    have e : ((Option.map (fun o => (o, stuffEnd 0 (msgLsb (body c d)))) (emit o1 (stuff 0 (msgLsb (body c d))))).bind fun __x =>
        addFlags __x.fst c.post) = emit o1 (stuff 0 (msgLsb (body c d)) ++ flags c.post) := by
      rw [emit_append]
      cases emit o1 (stuff 0 (msgLsb (body c d))) with
      | none => rfl
      | some o2 => simp [addFlags_emit]
    rw [e]
    obtain ⟨i1, i2⟩ := emit_spec (stuff 0 (msgLsb (body c d)) ++ flags c.post) o1 hinv
    simp only [hs, hbl, List.length_append, flags_length, ← Nat.add_assoc] at i1 i2
    refine ⟨fun h => ?_, fun h => i2 h⟩
    obtain ⟨o, e1, e2, e3, e4⟩ := i1 h
    exact ⟨o, e1, e2, by rw [e3, hbits, frameBits, List.append_assoc], e4⟩
  · constructor
    · intro h; omega
    · intro _
      by_cases h2 : 0 + c.pre ≤ buf.length ∨ c.pre = 0
      · rw [if_pos h2]
        simp only [Option.bind_eq_bind, Option.bind_some]
        rw [if_neg (by simp; omega)]; rfl
      · rw [if_neg h2]; rfl

end Gensio.Hdlc
