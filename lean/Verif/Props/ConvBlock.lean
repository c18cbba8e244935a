import Verif.Props.ConvE2E
import Verif.Model.ConvBlock

/-!
# Block encoder (C65) and the convcode filter (C45)
-/

namespace Gensio.Convcode

/-! ### Writing bits into a zeroed array -/

theorem bitsOf_zero (n : Nat) : bitsOf n 0 = List.replicate n false := by
  apply List.ext_getElem
  · simp [bitsOf]
  · intro i h1 h2; simp [bitsOf]

/-- An array with the bits `s` in front and zeros behind. -/
structure BufOk (buf : List UInt8) (idx pos : Nat) (s : List Bool) (z : Nat) : Prop where
  bits : byteBits buf = s ++ List.replicate z false
  len : s.length = 8 * idx + pos
  pos : pos < 8

theorem lt_of_high_zero (b pos : Nat) (h8 : b < 2 ^ 8) (hp : pos ≤ 8)
    (h : bitsOf (8 - pos) (b >>> pos) = List.replicate (8 - pos) false) : b < 2 ^ pos := by
  have hlt : b >>> pos < 2 ^ (8 - pos) := by
    rw [Nat.shiftRight_eq_div_pow, Nat.div_lt_iff_lt_mul (Nat.two_pow_pos _), ← Nat.pow_add, show 8 - pos + pos = 8 by omega]
    exact h8
  have h0 := bitsOf_inj (8 - pos) (b >>> pos) 0 hlt (Nat.two_pow_pos _) (by rw [h, bitsOf_zero])
  rw [Nat.shiftRight_eq_div_pow, Nat.div_eq_zero_iff] at h0
  rcases h0 with h0 | h0
  · have := Nat.two_pow_pos pos; omega
  · exact h0

theorem byteBits_append (a b : List UInt8) : byteBits (a ++ b) = byteBits a ++ byteBits b := by simp [byteBits]

theorem orByte_spec (buf : List UInt8) (idx pos : Nat) (s : List Bool) (z : Nat) (h : BufOk buf idx pos s z)
    (x l : Nat) (hx : x < 2 ^ l) (hl : pos + l ≤ 8) (hz : l ≤ z) (h1 : 1 ≤ l) :
    ∃ buf', orByte buf idx x pos = some buf' ∧ buf'.length = buf.length ∧
      byteBits buf' = (s ++ bitsOf l x) ++ List.replicate (z - l) false := by
  obtain ⟨hb, hs, hp⟩ := h
  have htot : 8 * buf.length = s.length + z := by
    have := congrArg List.length hb
    rw [byteBits_length] at this
    simpa using this
  have hi : idx < buf.length := by omega
  have hsplit : buf = buf.take idx ++ buf[idx] :: buf.drop (idx + 1) := by
    rw [List.getElem_cons_drop, List.take_append_drop]
  refine ⟨buf.set idx (UInt8.ofNat (buf[idx].toNat ||| (x <<< pos))), ?_, by simp, ?_⟩
  · rw [orByte, List.getElem?_eq_getElem hi]
  · have hset : buf.set idx (UInt8.ofNat (buf[idx].toNat ||| (x <<< pos))) =
        buf.take idx ++ UInt8.ofNat (buf[idx].toNat ||| (x <<< pos)) :: buf.drop (idx + 1) := by
      rw [List.set_eq_take_append_cons_drop, if_pos hi]
    have hA : (byteBits (buf.take idx)).length = 8 * idx := by
      rw [byteBits_length, List.length_take]; omega
    have hcons : ∀ (b : UInt8) (l : List UInt8), byteBits (b :: l) = bitsOf 8 b.toNat ++ byteBits l := fun _ _ => rfl
    rw [hsplit, byteBits_append, hcons] at hb
    rw [hset, byteBits_append, hcons]
    have hb8 : (buf[idx]).toNat < 2 ^ 8 := (buf[idx]).toNat_lt
    generalize (buf[idx]).toNat = b at hb hb8 ⊢
    generalize byteBits (buf.take idx) = A at hb hA ⊢
    generalize byteBits (buf.drop (idx + 1)) = B at hb ⊢
    have e8 : bitsOf 8 b = bitsOf pos b ++ bitsOf (8 - pos) (b >>> pos) := by
      rw [← bitsOf_add, show pos + (8 - pos) = 8 by omega]
    rw [e8, List.append_assoc, ← List.append_assoc A] at hb
    obtain ⟨q1, q2⟩ := List.append_inj hb (by rw [List.length_append, hA, bitsOf_length, hs])
    have hzz : z = (8 - pos) + (z - (8 - pos)) := by
      have := congrArg List.length q2
      rw [List.length_append, bitsOf_length, List.length_replicate] at this
      omega
    rw [hzz, ← List.replicate_append_replicate] at q2
    obtain ⟨q3, q4⟩ := List.append_inj q2 (by rw [bitsOf_length, List.length_replicate])
    have hbp := lt_of_high_zero b pos hb8 (by omega) q3
    have hsh : x <<< pos < 2 ^ (pos + l) := by
      rw [Nat.shiftLeft_eq, Nat.add_comm, Nat.pow_add]
      exact Nat.mul_lt_mul_of_pos_right hx (Nat.two_pow_pos _)
    have hor : b ||| (x <<< pos) < 2 ^ (pos + l) := Nat.or_lt_two_pow
      (Nat.lt_of_lt_of_le hbp (Nat.pow_le_pow_right (by decide) (by omega))) hsh
    have h256 : b ||| (x <<< pos) < 256 :=
      Nat.lt_of_lt_of_le hor (Nat.pow_le_pow_right (by decide) hl)
    have key := pack_bits b x pos l hbp hl
    rw [Nat.mod_eq_of_lt h256] at key
    rw [UInt8.toNat_ofNat', Nat.mod_eq_of_lt h256]
    have e9 : bitsOf 8 (b ||| (x <<< pos)) = bitsOf pos b ++ bitsOf l x ++ List.replicate (8 - (pos + l)) false := by
      rw [← key, ← bitsOf_zero, ← (Nat.shiftRight_eq_zero _ _ hor), ← bitsOf_add, show pos + l + (8 - (pos + l)) = 8 by omega]
    rw [e9, q4, ← q1]
    simp only [List.append_assoc, List.append_cancel_left_eq, List.replicate_append_replicate]
    congr 1
    omega

theorem bufOk_wrap (e : BEnc) (s : List Bool) (z : Nat) (hb : byteBits e.buf = s ++ List.replicate z false)
    (hl : s.length = 8 * e.idx + e.pos) (hp : e.pos ≤ 8) :
    BufOk e.wrap.buf e.wrap.idx e.wrap.pos s z ∧ e.wrap.state = e.state ∧ e.wrap.ppos = e.ppos ∧
      e.wrap.buf.length = e.buf.length := by
  rw [BEnc.wrap]
  split
  · exact ⟨⟨hb, by simp only; omega, by simp only; omega⟩, rfl, rfl, rfl⟩
  · exact ⟨⟨hb, hl, by omega⟩, rfl, rfl, rfl⟩

theorem blockPut_spec (span : Bool) (left : Nat) : ∀ (bits : Nat) (e : BEnc) (s : List Bool) (z : Nat),
    BufOk e.buf e.idx e.pos s z → bits < 2 ^ left → left ≤ z → 1 ≤ left → (span = true ∨ e.pos + left ≤ 8) →
    ∃ e', blockPut span left bits e = some e' ∧ BufOk e'.buf e'.idx e'.pos (s ++ bitsOf left bits) (z - left) ∧
      e'.state = e.state ∧ e'.ppos = e.ppos ∧ e'.buf.length = e.buf.length := by
  induction left using Nat.strongRecOn with
  | _ left ih =>
    intro bits e s z h hb hz h1 hsp
    have hp := h.pos
    rw [blockPut]
    by_cases hc : span = true ∧ 8 - e.pos < left ∧ e.pos < 8
    · rw [dif_pos hc]
      have hm : bits &&& (2 ^ (8 - e.pos) - 1) = bits % 2 ^ (8 - e.pos) := Nat.and_two_pow_sub_one_eq_mod _ _
      obtain ⟨buf', f1, f2, f3⟩ := orByte_spec e.buf e.idx e.pos s z h (bits % 2 ^ (8 - e.pos)) (8 - e.pos)
        (Nat.mod_lt _ (Nat.two_pow_pos _)) (by omega) (by omega) (by omega)
      rw [hm, f1]
      rw [bitsOf_mod _ _ _ (Nat.le_refl _)] at f3
      have hb' : bits >>> (8 - e.pos) < 2 ^ (left - (8 - e.pos)) := by
        rw [Nat.shiftRight_eq_div_pow, Nat.div_lt_iff_lt_mul (Nat.two_pow_pos _), ← Nat.pow_add,
          show left - (8 - e.pos) + (8 - e.pos) = left by omega]
        exact hb
      obtain ⟨e', g1, g2, g3, g4, g5⟩ := ih (left - (8 - e.pos)) (by omega) (bits >>> (8 - e.pos))
        { e with buf := buf', idx := e.idx + 1, pos := 0 } (s ++ bitsOf (8 - e.pos) bits) (z - (8 - e.pos))
        ⟨f3, by have := h.len; simp only [List.length_append, bitsOf_length]; omega, by simp only; omega⟩ hb' (by omega)
        (by omega) (Or.inl hc.1)
      refine ⟨e', g1, ?_, g3, g4, by rw [g5]; exact f2⟩
      have e1 : bitsOf left bits = bitsOf (8 - e.pos) bits ++ bitsOf (left - (8 - e.pos)) (bits >>> (8 - e.pos)) := by
        rw [← bitsOf_add, show 8 - e.pos + (left - (8 - e.pos)) = left by omega]
      rw [e1, ← List.append_assoc, show z - left = z - (8 - e.pos) - (left - (8 - e.pos)) by omega]
      exact g2
    · rw [dif_neg hc]
      have hl : e.pos + left ≤ 8 := by
        rcases hsp with hsp | hsp
        · simp only [hsp, true_and] at hc; omega
        · exact hsp
      obtain ⟨buf', f1, f2, f3⟩ := orByte_spec e.buf e.idx e.pos s z h bits left hb hl hz h1
      rw [f1]
      obtain ⟨w1, w2, w3, w4⟩ := bufOk_wrap { e with buf := buf', pos := e.pos + left } _ _ f3
        (by have := h.len; simp only [List.length_append, bitsOf_length]; omega) hl
      exact ⟨_, rfl, w1, w2, w3, by rw [w4]; exact f2⟩

theorem blockPunc_spec (p : List Bool) (hp : p ≠ []) (left : Nat) : ∀ (bits i : Nat) (e : BEnc) (s : List Bool) (z : Nat),
    BufOk e.buf e.idx e.pos s z → e.ppos = i % p.length → (puncture p i (bitsOf left bits)).length ≤ z →
    ∃ e', blockPunc p left bits e = some e' ∧
      BufOk e'.buf e'.idx e'.pos (s ++ puncture p i (bitsOf left bits)) (z - (puncture p i (bitsOf left bits)).length) ∧
      e'.state = e.state ∧ e'.ppos = (i + left) % p.length ∧ e'.buf.length = e.buf.length := by
  have hl : 0 < p.length := List.length_pos_iff.2 hp
  induction left with
  | zero =>
    intro bits i e s z h hi hz
    exact ⟨e, rfl, by simpa [bitsOf, puncture] using h, rfl, hi, rfl⟩
  | succ left ih =>
    intro bits i e s z h hi hz
    have hil := Nat.mod_lt i hl
    have hg : p[e.ppos]? = some (p.getD (i % p.length) false) := by
      rw [hi, List.getD_eq_getElem?_getD, List.getElem?_eq_getElem hil]; rfl
    have hnext : puncNext p e.ppos = (i + 1) % p.length := by rw [hi, puncNext_mod p hp]
    rw [bitsOf_succ, puncture] at hz ⊢
    cases hpi : p.getD (i % p.length) false with
    | false =>
      rw [hpi] at hg
      rw [hpi, if_neg (by simp [hp])] at hz
      rw [if_neg (by simp [hp])]
      have hstep : blockPunc p (left + 1) bits e = blockPunc p left (bits >>> 1) { e with ppos := puncNext p e.ppos } := by
        simp only [blockPunc, hg]
      rw [hstep]
      obtain ⟨e', g1, g2, g3, g4, g5⟩ := ih (bits >>> 1) (i + 1) { e with ppos := puncNext p e.ppos } s z h hnext hz
      exact ⟨e', g1, g2, g3, by rw [g4]; congr 1; omega, g5⟩
    | true =>
      rw [hpi] at hg
      rw [hpi, if_pos (Or.inr rfl), List.length_cons] at hz
      rw [if_pos (Or.inr rfl), List.length_cons]
      have hpos := h.pos
      have hlt : bits &&& 1 < 2 ^ 1 := by rw [Nat.and_one_is_mod]; omega
      have hb1 : bitsOf 1 (bits &&& 1) = [bits.testBit 0] := by
        rw [bit0]
        cases bits.testBit 0 <;> rfl
      obtain ⟨buf', f1, f2, f3⟩ := orByte_spec e.buf e.idx e.pos s z h (bits &&& 1) 1 hlt (by omega) (by omega) (by omega)
      rw [hb1] at f3
      have hstep : blockPunc p (left + 1) bits e = blockPunc p left (bits >>> 1)
          ({ e with ppos := puncNext p e.ppos, buf := buf', pos := e.pos + 1 } : BEnc).wrap := by
        simp only [blockPunc, hg, f1]
      rw [hstep]
      obtain ⟨w1, w2, w3, w4⟩ := bufOk_wrap { e with ppos := puncNext p e.ppos, buf := buf', pos := e.pos + 1 } _ _ f3
        (by have := h.len; simp only [List.length_append, List.length_singleton]; omega) (by simp only; omega)
      obtain ⟨e', g1, g2, g3, g4, g5⟩ := ih (bits >>> 1) (i + 1) _ _ _ w1 (by rw [w3]; exact hnext) (by omega)
      refine ⟨e', g1, ?_, by rw [g3, w2], by rw [g4]; congr 1; omega, by rw [g5, w4]; exact f2⟩
      rw [List.append_assoc, List.singleton_append] at g2
      rw [show z - ((puncture p (i + 1) (bitsOf left (bits >>> 1))).length + 1) =
        z - 1 - (puncture p (i + 1) (bitsOf left (bits >>> 1))).length by omega]
      exact g2

/-- The block encoder in the middle of a message: register `h`, `i` bits before puncturing, `s` bits written. -/
structure BRel (c : Code) (p : List Bool) (e : BEnc) (h : List Bool) (i : Nat) (s : List Bool) (z m : Nat) : Prop where
  rel : Rel c e.state h
  ppos : p ≠ [] → e.ppos = i % p.length
  buf : BufOk e.buf e.idx e.pos s z
  whole : p = [] → s.length % c.n = 0
  size : e.buf.length = m

theorem blockBit_spec (c : Code) (hk : c.Ok) (p : List Bool) (e : BEnc) (h : List Bool) (i : Nat) (s : List Bool) (z m : Nat)
    (hr : BRel c p e h i s z m) (b : Nat) (hb : b < 2) (hz : (puncture p i (outSym c (toB b) h)).length ≤ z) :
    ∃ e', blockBit c p c.span e b = some e' ∧
      BRel c p e' (regBit c (toB b) h :: h) (i + c.n) (s ++ puncture p i (outSym c (toB b) h))
        (z - (puncture p i (outSym c (toB b) h)).length) m := by
  have hcv := convert_eq c hk e.state b h hr.rel hb
  have hnx := rel_next c hk e.state b h hr.rel hb
  have hlt := convert_lt c b e.state hb hk.polys1
  have hol : (outSym c (toB b) h).length = c.n := by simp [outSym]
  have hn1 : 1 ≤ c.n := hk.polys1
  by_cases hp : p = []
  · subst hp
    rw [puncture_nil] at hz ⊢
    rw [hol] at hz ⊢
    have hsp : c.span = true ∨ e.pos + c.n ≤ 8 := by
      cases hs : c.span with
      | true => exact Or.inl rfl
      | false =>
        have hw := hr.whole rfl
        have hl := hr.buf.len
        have hp8 := hr.buf.pos
        simp only [Code.span, Bool.not_eq_false', Bool.or_eq_true, beq_iff_eq] at hs
        right
        rcases hs with (hs | hs) | hs <;> rw [hs] at hw ⊢ <;> omega
    obtain ⟨e', g1, g2, g3, g4, g5⟩ := blockPut_spec c.span c.n (c.convert b e.state)
      { e with state := c.next b e.state } s z hr.buf hlt hz hn1 hsp
    refine ⟨e', by rw [blockBit, if_pos rfl]; exact g1, ?_, by simp, by rw [← hcv]; exact g2, ?_, by rw [g5]; exact hr.size⟩
    · rw [g3]; exact hnx
    · intro _
      rw [List.length_append, hol, Nat.add_mod_right]
      exact hr.whole rfl
  · rw [← hcv] at hz ⊢
    obtain ⟨e', g1, g2, g3, g4, g5⟩ := blockPunc_spec p hp c.n (c.convert b e.state) i
      { e with state := c.next b e.state } s z hr.buf (hr.ppos hp) hz
    exact ⟨e', by rw [blockBit, if_neg hp]; exact g1, by rw [g3]; exact hnx, fun _ => g4, g2, fun h => absurd h hp,
      by rw [g5]; exact hr.size⟩

theorem blockByte_spec (c : Code) (hk : c.Ok) (p : List Bool) (n : Nat) : ∀ (byte : Nat) (e : BEnc) (h : List Bool)
    (i : Nat) (s : List Bool) (z m : Nat), BRel c p e h i s z m →
    (puncture p i (cwBits c h (bitsOf n byte))).length ≤ z →
    ∃ e', blockByte c p c.span n byte e = some e' ∧
      BRel c p e' (regAfter c h (bitsOf n byte)) (i + c.n * n) (s ++ puncture p i (cwBits c h (bitsOf n byte)))
        (z - (puncture p i (cwBits c h (bitsOf n byte))).length) m := by
  induction n with
  | zero => intro byte e h i s z m hr _; exact ⟨e, rfl, by simpa [bitsOf, cwBits, codewordFrom, puncture, regAfter] using hr⟩
  | succ n ih =>
    intro byte e h i s z m hr hz
    have hb : byte &&& 1 < 2 := by rw [Nat.and_one_is_mod]; omega
    have htb : toB (byte &&& 1) = byte.testBit 0 := by
      rw [bit0]; cases byte.testBit 0 <;> rfl
    have hcw : cwBits c h (byte.testBit 0 :: bitsOf n (byte >>> 1)) =
        outSym c (byte.testBit 0) h ++ cwBits c (regBit c (byte.testBit 0) h :: h) (bitsOf n (byte >>> 1)) := rfl
    have hol : (outSym c (byte.testBit 0) h).length = c.n := by simp [outSym]
    rw [bitsOf_succ, hcw, puncture_append, hol, List.length_append] at hz
    rw [bitsOf_succ, hcw, puncture_append, hol, List.length_append]
    obtain ⟨e1, f1, r1⟩ := blockBit_spec c hk p e h i s z m hr (byte &&& 1) hb (by rw [htb]; omega)
    rw [htb] at r1
    obtain ⟨e2, f2, r2⟩ := ih (byte >>> 1) e1 _ _ _ _ _ r1 (by omega)
    refine ⟨e2, by simp only [blockByte, f1]; exact f2, ?_⟩
    rw [← List.append_assoc, show i + c.n * (n + 1) = i + c.n + c.n * n by rw [Nat.mul_add]; omega, Nat.sub_add_eq]
    exact r2

theorem blockFinal_spec (c : Code) (hk : c.Ok) (p : List Bool) (n : Nat) : ∀ (e : BEnc) (h : List Bool)
    (i : Nat) (s : List Bool) (z m : Nat), BRel c p e h i s z m →
    (puncture p i (cwBits c h (List.replicate n false))).length ≤ z →
    ∃ e' h', blockFinal c p c.span n e = some e' ∧
      BRel c p e' h' (i + c.n * n) (s ++ puncture p i (cwBits c h (List.replicate n false)))
        (z - (puncture p i (cwBits c h (List.replicate n false))).length) m := by
  induction n with
  | zero => intro e h i s z m hr _; exact ⟨e, h, rfl, by simpa [cwBits, codewordFrom, puncture] using hr⟩
  | succ n ih =>
    intro e h i s z m hr hz
    have hcw : cwBits c h (List.replicate (n + 1) false) =
        outSym c false h ++ cwBits c (regBit c false h :: h) (List.replicate n false) := rfl
    have hol : (outSym c false h).length = c.n := by simp [outSym]
    rw [hcw, puncture_append, hol, List.length_append] at hz
    rw [hcw, puncture_append, hol, List.length_append]
    obtain ⟨e1, f1, r1⟩ := blockBit_spec c hk p e h i s z m hr 0 (by decide) (by show (puncture p i (outSym c false h)).length ≤ z; omega)
    rw [show toB 0 = false from rfl] at r1
    obtain ⟨e2, h2, f2, r2⟩ := ih e1 _ _ _ _ _ r1 (by omega)
    refine ⟨e2, h2, by simp only [blockFinal, f1]; exact f2, ?_⟩
    rw [← List.append_assoc, show i + c.n * (n + 1) = i + c.n + c.n * n by rw [Nat.mul_add]; omega, Nat.sub_add_eq]
    exact r2

theorem regAfter_append (c : Code) (xs ys : List Bool) : ∀ h, regAfter c h (xs ++ ys) = regAfter c (regAfter c h xs) ys := by
  induction xs with
  | nil => intro h; rfl
  | cons x xs ih => intro h; exact ih _

theorem blockPartial_spec (c : Code) (hk : c.Ok) (p : List Bool) (bytes : List UInt8) : ∀ (nbits : Nat) (e : BEnc)
    (h : List Bool) (i : Nat) (s : List Bool) (z m : Nat), BRel c p e h i s z m → nbits ≤ 8 * bytes.length →
    (puncture p i (cwBits c h ((byteBits bytes).take nbits))).length ≤ z →
    ∃ e', blockPartial c p c.span bytes nbits e = some e' ∧
      BRel c p e' (regAfter c h ((byteBits bytes).take nbits)) (i + c.n * nbits)
        (s ++ puncture p i (cwBits c h ((byteBits bytes).take nbits)))
        (z - (puncture p i (cwBits c h ((byteBits bytes).take nbits))).length) m := by
  induction bytes with
  | nil =>
    intro nbits e h i s z m hr hn _
    have : nbits = 0 := by simpa using hn
    subst this
    exact ⟨e, rfl, by simpa [byteBits, cwBits, codewordFrom, puncture, regAfter] using hr⟩
  | cons b bytes ih =>
    intro nbits e h i s z m hr hn hz
    have hbb : byteBits (b :: bytes) = bitsOf 8 b.toNat ++ byteBits bytes := rfl
    rw [blockPartial]
    by_cases h8 : 8 ≤ nbits
    · rw [if_pos h8]
      have et : (byteBits (b :: bytes)).take nbits = bitsOf 8 b.toNat ++ (byteBits bytes).take (nbits - 8) := by
        rw [hbb, List.take_append, List.take_of_length_le (by rw [bitsOf_length]; exact h8), bitsOf_length]
      rw [et, cwBits_append, puncture_append, cwBits_length, bitsOf_length, List.length_append] at hz
      rw [et, cwBits_append, puncture_append, cwBits_length, bitsOf_length, List.length_append]
      obtain ⟨e1, f1, r1⟩ := blockByte_spec c hk p 8 b.toNat e h i s z m hr (by omega)
      obtain ⟨e2, f2, r2⟩ := ih (nbits - 8) e1 _ _ _ _ _ r1 (by simp at hn; omega) (by omega)
      refine ⟨e2, by simp only [f1]; exact f2, ?_⟩
      rw [← List.append_assoc, regAfter_append, Nat.sub_add_eq,
        show i + c.n * nbits = i + c.n * 8 + c.n * (nbits - 8) by
          rw [Nat.mul_sub]; have := Nat.mul_le_mul_left c.n h8; omega]
      exact r2
    · rw [if_neg h8]
      have et : (byteBits (b :: bytes)).take nbits = bitsOf nbits b.toNat := by
        rw [hbb, List.take_append_of_le_length (by rw [bitsOf_length]; omega)]
        conv => lhs; rw [show 8 = nbits + (8 - nbits) by omega, bitsOf_add]
        rw [List.take_append_of_le_length (by rw [bitsOf_length]; omega), List.take_of_length_le (by rw [bitsOf_length]; omega)]
      rw [et] at hz ⊢
      exact blockByte_spec c hk p nbits b.toNat e h i s z m hr hz

theorem byteBits_zeros (m : Nat) : byteBits (List.replicate m 0) = List.replicate (8 * m) false := by
  induction m with
  | zero => rfl
  | succ m ih =>
    have : byteBits (List.replicate (m + 1) 0) = bitsOf 8 (0 : UInt8).toNat ++ byteBits (List.replicate m 0) := rfl
    rw [this, ih, show ((0 : UInt8).toNat) = 0 from rfl, bitsOf_zero, List.replicate_append_replicate]
    congr 1
    omega

/-- The codeword of a message and its tail, punctured. -/
def encoding (c : Code) (p : List Bool) (msg : List Bool) : List Bool :=
  puncture p 0 (codeword c (msg ++ List.replicate c.tailBits false)).flatten

/-- **C65**: for every code, puncture pattern and message, the block encoder writing into a zeroed array with room for
the encoding writes exactly the punctured codeword of the message and its tail (what C63 says of the stream encoder),
nothing behind it, stays within the array, and the reported number of bits is the number of bits of the encoding. -/
theorem C65_block (c : Code) (hk : c.Ok) (p : List Bool) (bytes : List UInt8) (nbits m : Nat)
    (hn : nbits ≤ 8 * bytes.length) (hm : (encoding c p ((byteBits bytes).take nbits)).length ≤ 8 * m) :
    ∃ e, encodeBlock c p bytes nbits (List.replicate m 0) = some e ∧ e.buf.length = m ∧
      byteBits e.buf = encoding c p ((byteBits bytes).take nbits) ++
        List.replicate (8 * m - (encoding c p ((byteBits bytes).take nbits)).length) false ∧
      8 * e.idx + e.pos = (encoding c p ((byteBits bytes).take nbits)).length := by
  have hlen : ((byteBits bytes).take nbits).length = nbits := by
    rw [List.length_take, byteBits_length]; omega
  have henc : encoding c p ((byteBits bytes).take nbits) =
      puncture p 0 (cwBits c [] ((byteBits bytes).take nbits)) ++
        puncture p (c.n * nbits) (cwBits c (regAfter c [] ((byteBits bytes).take nbits)) (List.replicate c.tailBits false)) := by
    show puncture p 0 (cwBits c [] _) = _
    rw [cwBits_append, puncture_append, cwBits_length, hlen, Nat.zero_add]
  rw [henc] at hm ⊢
  rw [List.length_append] at hm
  have h0 : BRel c p ⟨0, 0, List.replicate m 0, 0, 0⟩ [] 0 [] (8 * m) m :=
    ⟨rel_init c, fun _ => (Nat.zero_mod _).symm, ⟨by rw [byteBits_zeros]; rfl, rfl, by simp only; omega⟩, fun _ => Nat.zero_mod _,
      List.length_replicate ..⟩
  obtain ⟨e1, f1, r1⟩ := blockPartial_spec c hk p bytes nbits _ _ _ _ _ _ h0 hn (by omega)
  rw [Nat.zero_add] at r1
  obtain ⟨e2, h2, f2, r2⟩ := blockFinal_spec c hk p c.tailBits e1 _ _ _ _ _ r1 (by omega)
  refine ⟨e2, by rw [encodeBlock, f1]; exact f2, r2.size, ?_, ?_⟩
  · rw [r2.buf.bits, List.nil_append, List.length_append, Nat.sub_add_eq]
  · rw [← r2.buf.len, List.nil_append]

/-- **C65, scattered data**: `convencode_block_partial` for consecutive pieces of whole bytes is the same as for the
joined pieces. -/
theorem C65_pieces (c : Code) (p : List Bool) (a b : List UInt8) (e : BEnc) :
    ((blockPartial c p c.span a (8 * a.length) e).bind fun e => blockPartial c p c.span b (8 * b.length) e) =
      blockPartial c p c.span (a ++ b) (8 * (a ++ b).length) e := by
  induction a generalizing e with
  | nil => simp [blockPartial]
  | cons x a ih =>
    have e1 : ∀ l : List UInt8, blockPartial c p c.span (x :: l) (8 * (x :: l).length) e =
        (blockByte c p c.span 8 x.toNat e).bind fun e => blockPartial c p c.span l (8 * l.length) e := by
      intro l
      rw [blockPartial, if_pos (by simp; omega), show 8 * (x :: l).length - 8 = 8 * l.length by simp; omega]
      cases blockByte c p c.span 8 x.toNat e <;> rfl
    rw [List.cons_append, e1, e1]
    cases blockByte c p c.span 8 x.toNat e with
    | none => rfl
    | some e => exact ih e

/-- Three polynomials: symbols span bytes. -/
example : (encodeBlock ⟨3, [7, 5, 6], false, true⟩ [] [1] 8 [0, 0, 0, 0]).map (fun e => (e.buf, 8 * e.idx + e.pos)) =
    some ([0xef, 0, 0, 0], 30) := by decide +kernel
example : (encodeBlock code75 [true, true, true, false] [1] 8 [0, 0]).map (fun e => (e.buf, 8 * e.idx + e.pos)) =
    some ([0x1f, 0], 15) := by decide +kernel
/-- An array that is too short is overrun. -/
example : encodeBlock code75 [] [1] 8 [0, 0] = none := by decide +kernel

/-! ### Puncturing and the end of the data -/

/-- **C44 is violated with puncturing, even with soft decisions**: with the usual rate 3/4 pattern the decoder invents
a symbol at the end of an uncorrupted message of two bits and gives three bits back. -/
theorem C44_extra_bit_violated :
    ∃ (p : List Bool) (sent : List (Nat × Nat)) (total : Nat),
      ((encodeData code75 p [3] 2 Enc.init).bind fun e => encodeFinish code75 p e) = some (sent, total) ∧
      ((decodeData code75 (some 100) p 50 50 (rxBytes sent) (List.replicate total 0) total ⟨In.init, Dec.init⟩).bind
        fun f => finish code75 (some 100) p 50 50 f) = some ([1, 1, 0], 200) := by
  refine ⟨[true, true, false, true, true, false], _, _, rfl, ?_⟩
  decide +kernel

/-- A code without tail. -/
def code75n : Code := ⟨3, [7, 5], false, false⟩

theorem xs_ft_nil (i : In) (hi : i = ⟨0, 0, [], 0⟩ ∨ i = ⟨1, 0, [], 1⟩) :
    xs code75n none [false, true] [] i = some (⟨1, 0, [], 1⟩, [], none) := by
  rcases hi with rfl | rfl <;> rfl

theorem xs_ft_cons (i : In) (hi : i = ⟨0, 0, [], 0⟩ ∨ i = ⟨1, 0, [], 1⟩) (x : Nat × Nat) (ins : List (Nat × Nat)) :
    ∃ s, xs code75n none [false, true] (x :: ins) i = some (⟨0, 0, [], 0⟩, ins, some s) := by
  rcases hi with rfl | rfl
  · exact ⟨_, rfl⟩
  · exact ⟨_, rfl⟩

theorem dl_ft (ins : List (Nat × Nat)) : ∀ (fuel : Nat) (i : In) (acc : List Sym) (r : In × List Sym),
    (i = ⟨0, 0, [], 0⟩ ∨ i = ⟨1, 0, [], 1⟩) → dl code75n none [false, true] fuel ins i acc = some r →
    r.1 = ⟨1, 0, [], 1⟩ := by
  induction ins with
  | nil =>
    intro fuel i acc r hi h
    cases fuel with
    | zero => simp [dl] at h
    | succ fuel =>
      rw [dl, xs_ft_nil i hi] at h
      simp only [Option.some.injEq] at h
      rw [← h]
  | cons x ins ih =>
    intro fuel i acc r hi h
    cases fuel with
    | zero => simp [dl] at h
    | succ fuel =>
      obtain ⟨s, hs⟩ := xs_ft_cons i hi x ins
      rw [dl, hs] at h
      exact ih fuel _ _ r (Or.inl rfl) h

theorem decodeData_ft (bytes : List UInt8) (unc : List Nat) (size tsize fuel : Nat) (f f' : Full) (hs : size ≤ 8 * bytes.length)
    (hi : f.inp = ⟨0, 0, [], 0⟩ ∨ f.inp = ⟨1, 0, [], 1⟩)
    (h : decodeData code75n none [false, true] tsize fuel bytes unc size f = some f') : f'.inp = ⟨1, 0, [], 1⟩ := by
  rw [decodeData, symsOf_dl code75n (by decide) none [false, true] fuel bytes unc size ⟨hs, fun hh => absurd rfl hh⟩] at h
  cases hd : dl code75n none [false, true] (fuel + 1) (inList bytes unc size) f.inp [] with
  | none => rw [hd] at h; simp at h
  | some r =>
    have := dl_ft _ _ _ _ r hi hd
    rw [hd] at h
    simp only [Option.bind_eq_bind, Option.bind_some] at h
    cases hds : decodeSyms code75n none tsize r.2 f.dec with
    | none => rw [hds] at h; simp at h
    | some d =>
      rw [hds] at h
      simp only [Option.bind_some, Option.some.injEq] at h
      rw [← h]
      exact this

/-- **C44 is violated: `convdecode_finish` need not end.**  With a pattern that leaves out the first bit of every symbol
the loop that fills up the last symbol (convcode.c:1681-1697) never ends, whatever was received, and writes behind a
trellis of every size. -/
theorem C44_finish_loop_violated (bytes : List UInt8) (size tsize fuel fuel' : Nat) (hs : size ≤ 8 * bytes.length) (f : Full)
    (h : decodeData code75n none [false, true] tsize fuel bytes [] size ⟨In.init, Dec.init⟩ = some f) :
    finish code75n none [false, true] tsize fuel' f = none := by
  have hi := decodeData_ft bytes [] size tsize fuel _ f hs (Or.inl rfl) h
  have hloop : ∀ (n : Nat) (f : Full), f.inp = ⟨1, 0, [], 1⟩ → fillLoop code75n none [false, true] tsize n f = none := by
    intro n
    induction n with
    | zero => intro f _; rfl
    | succ n ih =>
      intro f hf
      rw [fillLoop, if_pos (by rw [hf]; decide)]
      cases hd : decodeData code75n none [false, true] tsize n [0] [50] 1 f with
      | none => rfl
      | some f' => exact ih f' (decodeData_ft [0] [50] 1 tsize n f f' (by decide) (Or.inr hf) hd)
  rw [finish, if_neg (by simp [Code.tailBits, code75n]), if_neg (by simp), hloop fuel' f hi]
  rfl

/-- Such decoders exist. -/
example : (decodeData code75n none [false, true] 50 50 [5] [] 4 ⟨In.init, Dec.init⟩).isSome = true := by decide +kernel

/-! ### Block decoder -/

theorem orBits_spec (bits : List Bool) : ∀ (buf : List UInt8) (s : List Bool) (z : Nat),
    byteBits buf = s ++ List.replicate z false → bits.length ≤ z →
    ∃ buf', orBits buf s.length (bits.map Bool.toNat) = some buf' ∧ buf'.length = buf.length ∧
      byteBits buf' = (s ++ bits) ++ List.replicate (z - bits.length) false := by
  induction bits with
  | nil => intro buf s z h _; exact ⟨buf, rfl, rfl, by simpa using h⟩
  | cons b bits ih =>
    intro buf s z h hz
    rw [List.length_cons] at hz
    have hb : b.toNat < 2 ^ 1 := by cases b <;> decide
    obtain ⟨buf1, f1, f2, f3⟩ := orByte_spec buf (s.length / 8) (s.length % 8) s z ⟨h, by omega, by omega⟩ b.toNat 1 hb
      (by omega) (by omega) (by omega)
    have hbb : bitsOf 1 b.toNat = [b] := by cases b <;> rfl
    rw [hbb] at f3
    obtain ⟨buf2, g1, g2, g3⟩ := ih buf1 (s ++ [b]) (z - 1) f3 (by omega)
    refine ⟨buf2, ?_, by rw [g2, f2], ?_⟩
    · rw [List.map_cons, orBits, f1]
      rw [List.length_append, List.length_singleton] at g1
      exact g1
    · rw [g3, List.length_cons, Nat.sub_sub, Nat.add_comm 1]; simp

theorem orBits_some (bits : List Nat) : ∀ (buf : List UInt8) (i : Nat), i + bits.length ≤ 8 * buf.length →
    ∃ buf', orBits buf i bits = some buf' ∧ buf'.length = buf.length := by
  induction bits with
  | nil => intro buf i _; exact ⟨buf, rfl, rfl⟩
  | cons b bits ih =>
    intro buf i h
    rw [List.length_cons] at h
    have hi : i / 8 < buf.length := by omega
    obtain ⟨buf', f1, f2⟩ := ih (buf.set (i / 8) (UInt8.ofNat (buf[i / 8].toNat ||| (b <<< (i % 8))))) (i + 1)
      (by rw [List.length_set]; omega)
    refine ⟨buf', ?_, by rw [f2, List.length_set]⟩
    rw [orBits, orByte, List.getElem?_eq_getElem hi]
    exact f1

theorem byteBits_inj (a : List UInt8) : ∀ b, byteBits a = byteBits b → a = b := by
  induction a with
  | nil =>
    intro b h
    cases b with
    | nil => rfl
    | cons x b => have := congrArg List.length h; rw [byteBits_length, byteBits_length] at this; simp at this
  | cons x a ih =>
    intro b h
    cases b with
    | nil => have := congrArg List.length h; rw [byteBits_length, byteBits_length] at this; simp at this
    | cons y b =>
      have h' : bitsOf 8 x.toNat ++ byteBits a = bitsOf 8 y.toNat ++ byteBits b := h
      obtain ⟨h1, h2⟩ := List.append_inj h' (by rw [bitsOf_length, bitsOf_length])
      rw [ih b h2, UInt8.toNat_inj.1 (bitsOf_inj 8 _ _ x.toNat_lt y.toNat_lt h1)]

/-- The bits `convdecode_block` puts into the array for an uncorrupted encoding. -/
theorem decodeBlock_bits (c : Code) (h : c.Ok) (hf : c.Fb) (hs : c.Sees) (bytes wire : List UInt8) (tsize z : Nat)
    (hne : bytes ≠ []) (ht : 8 * bytes.length + c.tailBits ≤ tsize)
    (hlen : 8 * (8 * bytes.length + c.tailBits) < 2 ^ 30 - 1)
    (hw : byteBits wire = encoding c [] (byteBits bytes) ++ List.replicate z false) (buf : List UInt8) :
    decodeBlock c tsize wire (rawSize c (8 * bytes.length)) buf = orBits buf 0 ((byteBits bytes).map Bool.toNat) := by
  have hn : 0 < c.n := h.polys1
  have hel : (encoding c [] (byteBits bytes)).length = rawSize c (8 * bytes.length) := by
    rw [encoding, puncture_nil]
    show (cwBits c [] _).length = _
    rw [cwBits_length, List.length_append, byteBits_length, List.length_replicate, rawSize]
  have hwl : rawSize c (8 * bytes.length) ≤ 8 * wire.length := by
    have := congrArg List.length hw
    rw [byteBits_length, List.length_append, hel] at this
    omega
  have hl : inList wire [] (rawSize c (8 * bytes.length)) =
      plain (codeword c (byteBits bytes ++ List.replicate c.tailBits false)).flatten := by
    rw [inList_plain _ _ hwl, hw, ← hel, List.take_left' rfl, encoding, puncture_nil]
  obtain ⟨d, d1, d2⟩ := C44_roundtrip c h hf hs (byteBits bytes) tsize 0 In.init
    (by rw [byteBits_length]; exact ht) (by rw [byteBits_length]; exact hlen)
  have hd := dl_syms c hn (codeword c (byteBits bytes ++ List.replicate c.tailBits false)) (codewordFrom_syms _ _ _)
    (rawSize c (8 * bytes.length) + 1 + 1) 0 [] (by
      rw [codeword, codewordFrom_length, List.length_append, byteBits_length, List.length_replicate, rawSize]
      have := Nat.mul_le_mul_right (8 * bytes.length + c.tailBits) hn
      omega)
  have hdata : decodeData c none [] tsize (rawSize c (8 * bytes.length) + 1) wire [] (rawSize c (8 * bytes.length))
      ⟨In.init, Dec.init⟩ = some ⟨⟨0, 0, [], 0⟩, d⟩ := by
    rw [decodeData, symsOf_dl c hn none [] _ _ _ _ ⟨hwl, fun hh => absurd rfl hh⟩, hl]
    show ((dl c none [] _ _ ⟨0, 0, [], 0⟩ []).bind _) = _
    rw [hd]
    simp only [List.nil_append, Option.bind_some, Option.bind_eq_bind]
    rw [d1]; rfl
  rw [decodeBlock, hdata]
  have hnil : (byteBits bytes).map Bool.toNat ≠ [] := by
    intro h0
    have := congrArg List.length h0
    rw [List.length_map, byteBits_length] at this
    have h8 : 8 * bytes.length = 0 := this
    exact hne (List.length_eq_zero_iff.1 (by omega))
  rw [finish] at d2
  split at d2
  · simp only [Option.some.injEq, Prod.mk.injEq] at d2
    exact absurd d2.1.symm hnil
  · rename_i hc
    rw [if_pos rfl, decodeFinish, if_neg hc] at d2
    simp only [Option.bind_eq_bind] at d2 ⊢
    cases hb : backLoop c.states d.cols (minLoop d.prev (c.states - 1) 1 0 (d.prev 0)).1 [] with
    | none => rw [hb] at d2; simp at d2
    | some b =>
      rw [hb] at d2
      simp only [Option.bind_some, Option.some.injEq, Prod.mk.injEq] at d2 ⊢
      rw [d2.1]

/-- **C65, decoding**: `convdecode_block` of an uncorrupted encoding into a zeroed array with enough room gives the
message with zeros behind it. -/
theorem C65_decode_block (c : Code) (h : c.Ok) (hf : c.Fb) (hs : c.Sees) (bytes wire : List UInt8) (tsize z m : Nat)
    (hne : bytes ≠ []) (hm : bytes.length ≤ m) (ht : 8 * bytes.length + c.tailBits ≤ tsize)
    (hlen : 8 * (8 * bytes.length + c.tailBits) < 2 ^ 30 - 1)
    (hw : byteBits wire = encoding c [] (byteBits bytes) ++ List.replicate z false) :
    decodeBlock c tsize wire (rawSize c (8 * bytes.length)) (List.replicate m 0) =
      some (bytes ++ List.replicate (m - bytes.length) 0) := by
  rw [decodeBlock_bits c h hf hs bytes wire tsize z hne ht hlen hw]
  obtain ⟨buf', g1, g2, g3⟩ := orBits_spec (byteBits bytes) (List.replicate m 0) [] (8 * m) (by rw [byteBits_zeros]; rfl)
    (by rw [byteBits_length]; omega)
  rw [List.length_nil] at g1
  rw [g1]
  congr 1
  apply byteBits_inj
  rw [g3, byteBits_append, byteBits_zeros, byteBits_length, List.nil_append]
  congr 2
  omega

/-! ### The filter -/

/-- What a receiver of the filter needs of the code and a message. -/
structure Fits (c : Code) (maxRead : Nat) (m : List UInt8) : Prop where
  ne : m ≠ []
  le : m.length ≤ maxRead
  len : 8 * (8 * m.length + c.tailBits) < 2 ^ 30 - 1

theorem raw_lt (c : Code) (h : c.Ok) (maxRead : Nat) (m : List UInt8) (hm : Fits c maxRead m) :
    rawSize c (8 * m.length) + 8 < 2 ^ 32 := by
  have h1 : rawSize c (8 * m.length) ≤ 8 * (8 * m.length + c.tailBits) := Nat.mul_le_mul_right _ h.polys8
  have := hm.len
  generalize rawSize c (8 * m.length) = r at h1 ⊢
  omega

theorem txEncode_spec (c : Code) (h : c.Ok) (ht : c.tail = true) (maxRead : Nat) (m : List UInt8) (hm : Fits c maxRead m) :
    ∃ w z, txEncode c m = some w ∧ w.length = (rawSize c (8 * m.length) + 7) / 8 ∧
      byteBits w = encoding c [] (byteBits m) ++ List.replicate z false := by
  have hr := raw_lt c h maxRead m hm
  have hes : encodedSize (8 * m.length) c.n c.k true [] = rawSize c (8 * m.length) := by
    rw [← ht, encodedSize_raw c [] _ (by omega), if_pos rfl]
  have htake : (byteBits m).take (8 * m.length) = byteBits m :=
    List.take_of_length_le (by rw [byteBits_length]; exact Nat.le_refl _)
  have hel : (encoding c [] (byteBits m)).length = rawSize c (8 * m.length) := by
    rw [encoding, puncture_nil]
    show (cwBits c [] _).length = _
    rw [cwBits_length, List.length_append, byteBits_length, List.length_replicate, rawSize]
  obtain ⟨e, g1, g2, g3, _⟩ := C65_block c h [] m (8 * m.length) ((rawSize c (8 * m.length) + 7) / 8) (Nat.le_refl _)
    (by rw [htake, hel]; omega)
  rw [htake] at g3
  refine ⟨e.buf, _, ?_, g2, g3⟩
  rw [txEncode, hes, show u32 (rawSize c (8 * m.length) + 7) = rawSize c (8 * m.length) + 7 from
    Nat.mod_eq_of_lt (by omega), g1]

/-- The filter when `n` messages have been delivered. -/
structure RxOk (f : Rx) (maxRead n : Nat) : Prop where
  max : f.maxRead = maxRead
  num : f.num = 0
  curr : f.curr = n
  size : f.msgs.length = 8
  all : ∀ d ∈ f.msgs, d.data.length = maxRead
  fresh : ∀ j, n ≤ j → ∀ d, f.msgs[j]? = some d → d.data = List.replicate maxRead 0

theorem trellis_ok (c : Code) (h : c.Ok) (ht : c.tail = true) (maxRead : Nat) (hmax : rawSize c (8 * maxRead) + 8 < 2 ^ 32)
    (m : List UInt8) (hm : Fits c maxRead m) : 8 * m.length + c.tailBits ≤ trellisSize c maxRead := by
  rw [trellisSize, Nat.mul_comm maxRead 8, ← ht, encodedSize_raw c [] _ (by omega), if_pos rfl, rawSize]
  have h1 := Nat.mul_le_mul_right (8 * maxRead + c.tailBits) h.polys1
  have hc : c.n = c.polys.length := rfl
  have := hm.le
  rw [← hc] at h1
  omega

/-- One call up to the delivery. -/
theorem llWrite_eq (c : Code) (h : c.Ok) (hf : c.Fb) (hs : c.Sees) (ht : c.tail = true) (maxRead : Nat)
    (hmax : rawSize c (8 * maxRead) + 8 < 2 ^ 32) (m w : List UInt8) (hm : Fits c maxRead m) (hw : txEncode c m = some w)
    (f : Rx) (n : Nat) (hr : RxOk f maxRead n) (d : CMsg) (hd : f.msgs[n % 8]? = some d)
    (cb : List UInt8 → Nat → Option Nat) :
    ∃ data, orBits d.data 0 ((byteBits m).map Bool.toNat) = some data ∧ data.length = maxRead ∧
      decodeBlock c (trellisSize c maxRead) w (rawSize c (8 * m.length)) d.data = some data ∧
      f.llWrite c cb w =
        ({ f with msgs := f.msgs.set (n % 8) ⟨data, 0, m.length, 8 * m.length⟩, num := 1 } : Rx).deliver cb := by
  obtain ⟨w', z, e1, e2, e3⟩ := txEncode_spec c h ht maxRead m hm
  rw [hw] at e1
  have hww : w = w' := by simpa using e1
  subst hww
  have hraw := raw_lt c h maxRead m hm
  have hm8 := hm.len
  have hml : 0 < m.length := List.length_pos_iff.2 hm.ne
  have hdl : d.data.length = maxRead := hr.all d (List.mem_of_getElem? hd)
  obtain ⟨data, o1, o2⟩ := orBits_some ((byteBits m).map Bool.toNat) d.data 0 (by
    rw [List.length_map, byteBits_length, hdl]; have := hm.le; omega)
  have hdec : decodeBlock c (trellisSize c maxRead) w (rawSize c (8 * m.length)) d.data = some data := by
    rw [decodeBlock_bits c h hf hs m w _ z hm.ne (trellis_ok c h ht maxRead hmax m hm) hm.len e3, o1]
  refine ⟨data, o1, by rw [o2, hdl], hdec, ?_⟩
  have hwne : w ≠ [] := by
    intro h0
    rw [h0] at e2
    have h1 := Nat.mul_le_mul_right (8 * m.length + c.tailBits) h.polys1
    have hc : rawSize c (8 * m.length) = c.polys.length * (8 * m.length + c.tailBits) := rfl
    rw [← hc] at h1
    simp only [List.length_nil] at e2
    omega
  have hes : encodedSize (8 * m.length) c.n c.k true [] = rawSize c (8 * m.length) := by
    rw [← ht, encodedSize_raw c [] _ (by omega), if_pos rfl]
  have hbits : encodedBits w.length c.n c.k true = some (rawSize c (8 * m.length)) := by
    have := C42_encoded_bits c h m.length hraw
    rw [ht, hes] at this
    rw [e2, this]
  have hdsz : decodedSize (rawSize c (8 * m.length)) c.n c.k true [] = some (some (8 * m.length)) := by
    have := C42_decoded_size c h (8 * m.length) (by omega)
    rw [ht, hes] at this
    exact this
  have hnb : u32 (8 * m.length + 7) / 8 = m.length := by
    rw [u32, Nat.mod_eq_of_lt (by omega)]; omega
  rw [Rx.llWrite, if_neg (by rw [hr.num]; simp [hwne]), hbits]
  simp only [hdsz, hnb, hr.curr, hr.num, Nat.add_zero, Nat.zero_add, hd, hr.max, hdec]
  rw [if_neg (by have := hm.le; omega)]

theorem llWrite_ok (c : Code) (h : c.Ok) (hf : c.Fb) (hs : c.Sees) (ht : c.tail = true) (maxRead : Nat)
    (hmax : rawSize c (8 * maxRead) + 8 < 2 ^ 32) (m w : List UInt8) (hm : Fits c maxRead m) (hw : txEncode c m = some w)
    (f : Rx) (n : Nat) (hn : n < 8) (hr : RxOk f maxRead n)
    (cb : List UInt8 → Nat → Option Nat) (hcb : ∀ d k, cb d k = some d.length) :
    ∃ f', f.llWrite c cb w = some (f', [(m, 8 * m.length)]) ∧ RxOk f' maxRead (n + 1) := by
  have hn8 : n % 8 = n := Nat.mod_eq_of_lt hn
  have hl : n < f.msgs.length := by rw [hr.size]; exact hn
  obtain ⟨data, o1, o2, _, o3⟩ := llWrite_eq c h hf hs ht maxRead hmax m w hm hw f n hr (f.msgs[n])
    (by rw [hn8, List.getElem?_eq_getElem hl]) cb
  rw [hn8] at o3
  have hz : (f.msgs[n]).data = List.replicate maxRead 0 := hr.fresh n (Nat.le_refl _) _ (List.getElem?_eq_getElem hl)
  have hdata : data = m ++ List.replicate (maxRead - m.length) 0 := by
    obtain ⟨buf', g1, g2, g3⟩ := orBits_spec (byteBits m) (List.replicate maxRead 0) [] (8 * maxRead)
      (by rw [byteBits_zeros]; rfl) (by rw [byteBits_length]; have := hm.le; omega)
    rw [hz] at o1
    rw [List.length_nil] at g1
    rw [g1] at o1
    simp only [Option.some.injEq] at o1
    rw [← o1]
    apply byteBits_inj
    rw [g3, byteBits_append, byteBits_zeros, byteBits_length, List.nil_append]
    congr 2
    omega
  have hout : (data.drop 0).take (m.length - 0) = m := by rw [hdata]; simp
  have hget : (f.msgs.set n ⟨data, 0, m.length, 8 * m.length⟩)[f.curr]? = some ⟨data, 0, m.length, 8 * m.length⟩ := by
    rw [hr.curr, List.getElem?_set_self hl]
  refine ⟨{ f with msgs := (f.msgs.set n ⟨data, 0, m.length, 8 * m.length⟩).set f.curr ⟨data, 0, 0, 8 * m.length⟩,
                   num := 0, curr := f.curr + 1 }, ?_, ?_⟩
  · rw [o3, Rx.deliver, if_neg (by simp only; omega)]
    simp only [hget, hout, hcb]
    rw [if_pos (by omega)]
  · refine ⟨hr.max, rfl, by simp only [hr.curr], by simp [hr.size], ?_, ?_⟩
    · intro d hd
      simp only at hd
      rcases List.mem_or_eq_of_mem_set hd with hd | hd
      · rcases List.mem_or_eq_of_mem_set hd with hd | hd
        · exact hr.all d hd
        · rw [hd]; exact o2
      · rw [hd]; exact o2
    · intro j hj d hd
      simp only [hr.curr] at hd
      rw [List.getElem?_set_ne (by omega), List.getElem?_set_ne (by omega)] at hd
      exact hr.fresh j (by omega) d hd

/-- The messages as sent by the other side. -/
def wires (c : Code) (msgs : List (List UInt8)) : Option (List (List UInt8)) := msgs.mapM (txEncode c)

theorem run_ok (c : Code) (h : c.Ok) (hf : c.Fb) (hs : c.Sees) (ht : c.tail = true) (maxRead : Nat)
    (hmax : rawSize c (8 * maxRead) + 8 < 2 ^ 32) (cb : List UInt8 → Nat → Option Nat) (hcb : ∀ d k, cb d k = some d.length)
    (msgs : List (List UInt8)) : ∀ (f : Rx) (n : Nat), (∀ m ∈ msgs, Fits c maxRead m) → n + msgs.length ≤ 8 →
    RxOk f maxRead n →
    ∃ ws f', wires c msgs = some ws ∧ f.run c cb ws = some (f', msgs.map fun m => (m, 8 * m.length)) ∧
      RxOk f' maxRead (n + msgs.length) := by
  induction msgs with
  | nil => intro f n _ _ hr; exact ⟨[], f, rfl, rfl, hr⟩
  | cons m msgs ih =>
    intro f n hm hn hr
    rw [List.length_cons] at hn
    obtain ⟨w, z, e1, _, _⟩ := txEncode_spec c h ht maxRead m (hm m (by simp))
    obtain ⟨f1, g1, g2⟩ := llWrite_ok c h hf hs ht maxRead hmax m w (hm m (by simp)) e1 f n (by omega) hr cb hcb
    obtain ⟨ws, f2, k1, k2, k3⟩ := ih f1 (n + 1) (fun x hx => hm x (by simp [hx])) (by omega) g2
    refine ⟨w :: ws, f2, ?_, ?_, ?_⟩
    · rw [wires] at k1 ⊢
      rw [List.mapM_cons, e1, k1]; rfl
    · rw [Rx.run, g1]
      simp only [k2, List.map_cons, List.singleton_append]
    · rw [List.length_cons, show n + (msgs.length + 1) = n + 1 + msgs.length by omega]
      exact k3

theorem rx_init (maxRead : Nat) : RxOk (Rx.init maxRead) maxRead 0 := by
  have hall : ∀ d ∈ (Rx.init maxRead).msgs, d.data = List.replicate maxRead 0 := by
    intro d hd
    rw [List.eq_of_mem_replicate hd]
  exact ⟨rfl, rfl, rfl, rfl, fun d hd => by rw [hall d hd, List.length_replicate],
    fun j _ d hd => hall d (List.mem_of_getElem? hd)⟩

/-- **C45, up to eight messages**: for every code whose symbols tell the input bit, everything sent by the filter of the
other side is delivered exactly and in order, provided that it is no more than eight messages and the upper layer takes
each of them at once.  Missing: more than eight messages, see `C45_ninth_violated`, and an upper layer that takes the
messages in pieces. -/
theorem C45_first8_partial (c : Code) (h : c.Ok) (hf : c.Fb) (hs : c.Sees) (ht : c.tail = true) (maxRead : Nat)
    (hmax : rawSize c (8 * maxRead) + 8 < 2 ^ 32) (cb : List UInt8 → Nat → Option Nat) (hcb : ∀ d k, cb d k = some d.length)
    (msgs : List (List UInt8)) (hm : ∀ m ∈ msgs, Fits c maxRead m) (h8 : msgs.length ≤ 8) :
    ∃ ws f', wires c msgs = some ws ∧
      (Rx.init maxRead).run c cb ws = some (f', msgs.map fun m => (m, 8 * m.length)) := by
  obtain ⟨ws, f', k1, k2, _⟩ := run_ok c h hf hs ht maxRead hmax cb hcb msgs _ 0 hm (by omega) (rx_init maxRead)
  exact ⟨ws, f', k1, k2⟩

/-- **C45 is violated for every ninth message**: `curr_readmsg` counts the delivered messages and never wraps
(gensio_convcode.c:327-328), so after any eight messages the next one, though it can be decoded, is looked for behind
the array `readmsgs`. -/
theorem C45_ninth_violated (c : Code) (h : c.Ok) (hf : c.Fb) (hs : c.Sees) (ht : c.tail = true) (maxRead : Nat)
    (hmax : rawSize c (8 * maxRead) + 8 < 2 ^ 32) (cb : List UInt8 → Nat → Option Nat) (hcb : ∀ d k, cb d k = some d.length)
    (msgs : List (List UInt8)) (m : List UInt8) (hm : ∀ x ∈ m :: msgs, Fits c maxRead x) (h8 : msgs.length = 8) :
    ∃ ws f' w d data, wires c msgs = some ws ∧ txEncode c m = some w ∧
      (Rx.init maxRead).run c cb ws = some (f', msgs.map fun m => (m, 8 * m.length)) ∧
      f'.msgs[0]? = some d ∧
      decodeBlock c (trellisSize c maxRead) w (rawSize c (8 * m.length)) d.data = some data ∧
      f'.llWrite c cb w = none := by
  obtain ⟨ws, f', k1, k2, k3⟩ := run_ok c h hf hs ht maxRead hmax cb hcb msgs _ 0 (fun x hx => hm x (by simp [hx]))
    (by omega) (rx_init maxRead)
  rw [h8] at k3
  obtain ⟨w, z, e1, _, _⟩ := txEncode_spec c h ht maxRead m (hm m (by simp))
  have h0 : 0 < f'.msgs.length := by rw [k3.size]; omega
  obtain ⟨data, o1, o2, o3, o4⟩ := llWrite_eq c h hf hs ht maxRead hmax m w (hm m (by simp)) e1 f' 8 k3 (f'.msgs[0])
    (by rw [show 8 % 8 = 0 from rfl, List.getElem?_eq_getElem h0]) cb
  refine ⟨ws, f', w, f'.msgs[0], data, k1, e1, k2, List.getElem?_eq_getElem h0, o3, ?_⟩
  rw [o4, Rx.deliver, if_neg (by simp only; omega)]
  have : (f'.msgs.set (8 % 8) ⟨data, 0, m.length, 8 * m.length⟩)[f'.curr]? = none := by
    rw [k3.curr]
    apply List.getElem?_eq_none
    rw [List.length_set, k3.size]
    omega
  simp only [this]

example : txEncode code75 [2, 3] = some [0xdc, 0, 0xeb, 0, 0] := by decide +kernel
example : ((Rx.init 4).run code75 (fun d _ => some d.length) [[0x37, 0, 0], [0x37, 0, 0]]).map Prod.snd =
    some [([1], 8), ([1], 8)] := by decide +kernel
example : ((Rx.init 4).run code75 (fun d _ => some d.length) (List.replicate 9 [0x37, 0, 0])).map Prod.snd = none := by
  decide +kernel

/-- The array has to be zeroed: old contents are mixed in. -/
theorem C65_decode_dirty_violated :
    decodeBlock code75 50 [0x37, 0, 0] 20 [0] = some [1] ∧ decodeBlock code75 50 [0x37, 0, 0] 20 [6] = some [7] := by
  constructor <;> decide +kernel

end Gensio.Convcode
