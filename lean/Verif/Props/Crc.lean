import Verif.Lemmas.Crc
/-!
# C11 — the CRC routines implement division by the CCITT polynomial
# C12 — the CRC check detects every burst of up to 16 bits
-/
namespace Gensio.Crc

/-- The generator x^16 + x^12 + x^5 + 1, highest coefficient first. -/
def generator : List Bool :=
  [true,
   false, false, false, true, false, false, false, false,
   false, false, true, false, false, false, false, true]

/-- Schoolbook long division of binary polynomials (highest coefficient first): while
more than 16 coefficients are left, subtract the generator if the leading coefficient is
1, then drop the leading coefficient (which is 0 now).  What is left is the remainder. -/
def longDiv : List Bool → List Bool
  | [] => []
  | b :: rest =>
    if rest.length < 16 then b :: rest
    else if b then longDiv (xorL (rest.take 16) generator.tail ++ rest.drop 16)
    else longDiv rest
termination_by l => l.length
decreasing_by
  · have : (xorL (rest.take 16) generator.tail).length ≤ 16 := by
      simp only [xorL, List.length_zipWith, List.length_take]; omega
    simp only [List.length_append, List.length_drop, List.length_cons]; omega
  · simp

theorem longDiv_reg (m : List Bool) : ∀ r : List Bool, r.length = 16 →
    longDiv (xorL (m ++ zeros 16) (r ++ zeros m.length)) = regRun r m := by
  induction m with
  | nil =>
    intro r hr
    simp only [List.nil_append, List.length_nil, zeros, List.replicate_zero, List.append_nil]
    rw [xorL_comm, xorL_zeros _ _ hr]
    cases r with
    | nil => simp at hr
    | cons a r => simp at hr; rw [longDiv]; simp [hr, regRun]
  | cons b m ih =>
    intro r hr
    cases r with
    | nil => simp at hr
    | cons a r =>
      simp at hr
      have hlen : (xorL (m ++ zeros 16) (r ++ zeros (m.length + 1))).length = m.length + 16 := by
        rw [xorL_length _ _ (by simp [hr]; omega)]; simp
      have hz : r ++ zeros (m.length + 1) = (r ++ [false]) ++ zeros m.length := by
        simp [List.replicate_succ]
      simp only [List.cons_append, xorL_cons, List.length_cons]
      rw [longDiv, if_neg (by omega)]
      have hregs : regRun (a :: r) (b :: m) = regRun (regStep (a :: r) b) m := rfl
      rw [hregs, regStep, Bool.xor_comm b a]
      split
      · have hl : (xorL (r ++ [false]) poly).length = 16 := by
          rw [xorL_length _ _ (by simp [hr, poly])]; simp [hr]
        rw [← ih _ hl]
        congr 1
        -- subtracting the generator touches the first 16 coefficients only
        have hg : generator.tail = poly := rfl
        have hX : ∀ X : List Bool, 16 ≤ X.length →
            xorL (X.take 16) poly ++ X.drop 16 = xorL X (poly ++ zeros (X.length - 16)) := by
          intro X hX
          conv => rhs; rw [← List.take_append_drop 16 X]
          rw [xorL_append _ _ _ _ (by simp [poly]; omega)]
          rw [List.take_append_drop, xorL_zeros _ _ (by simp)]
        rw [hg, hX _ (by omega), hlen, hz, xorL_assoc]
        congr 1
        have : m.length + 16 - 16 = m.length := by omega
        rw [this, xorL_append _ _ _ _ (by simp [hr, poly]), xorL_zeros _ _ (by simp)]
      · rw [← ih _ (by simp [hr]), hz]

/-- **C11, MSB-first variant** (`crc16` of the message delimiter layer).  For every initial
value and message the result is the remainder of message·x^16 + init·x^(message bits)
divided by the CCITT polynomial, all bits highest first. -/
theorem C11_crc16 (init : UInt16) (m : List UInt8) :
    msbBits 16 (crc16 init m).toNat =
      longDiv (xorL (msgMsb m ++ zeros 16) (msbBits 16 init.toNat ++ zeros (msgMsb m).length)) := by
  rw [crc16_bits, longDiv_reg _ _ (by simp)]

/-- **C11, reflected variant** (`crc16_ccitt` of HDLC, AX.25, axfec and fsk).  The same
with the bits of each byte and of the register taken lowest first (the order in which
HDLC puts them on the line). -/
theorem C11_ccitt (init : UInt16) (m : List UInt8) :
    lsbBits 16 (ccitt init m).toNat =
      longDiv (xorL (msgLsb m ++ zeros 16) (lsbBits 16 init.toNat ++ zeros (msgLsb m).length)) := by
  rw [ccitt_bits, longDiv_reg _ _ (by simp)]

/-- The bits determine the value. -/
theorem C11_value_unique (x y : UInt16) :
    (msbBits 16 x.toNat = msbBits 16 y.toNat → x = y) ∧
    (lsbBits 16 x.toNat = lsbBits 16 y.toNat → x = y) :=
  ⟨fun h => UInt16.toNat_inj.mp (bits_inj_msb 16 _ _ x.toNat_lt y.toNat_lt h),
   fun h => UInt16.toNat_inj.mp (bits_inj_lsb 16 _ _ x.toNat_lt y.toNat_lt h)⟩

/-- The catalogue check values of "123456789": 31c3 (XMODEM), 906e (X-25). -/
example : crc16 0 [0x31, 0x32, 0x33, 0x34, 0x35, 0x36, 0x37, 0x38, 0x39] = 0x31c3 := by decide +kernel
example : ccitt 0xffff [0x31, 0x32, 0x33, 0x34, 0x35, 0x36, 0x37, 0x38, 0x39] ^^^ 0xffff = 0x906e := by
  decide +kernel

/-! ## C12 -/

/-- An error pattern confined to 16 consecutive bits and not empty. -/
def IsBurst (e : List Bool) : Prop :=
  ∃ a w c, e = zeros a ++ w ++ zeros c ∧ w.length ≤ 16 ∧ true ∈ w

theorem regRun_zeros (n : Nat) : regRun (zeros 16) (zeros n) = zeros 16 := by
  induction n with
  | zero => rfl
  | succ n ih =>
    show regRun (regStep (zeros 16) false) (zeros n) = _
    have : regStep (zeros 16) false = zeros 16 := by decide
    rw [this, ih]

theorem burst_syndrome (e : List Bool) (h : IsBurst e) : regRun (zeros 16) e ≠ zeros 16 := by
  obtain ⟨a, w, c, rfl, hw, ht⟩ := h
  intro h
  rw [regRun_append, regRun_append, regRun_zeros] at h
  rw [← regRun_zeros c] at h
  have hl := regRun_length w (zeros 16) (by simp)
  have h1 := regRun_inj (zeros c) _ _ (by rw [regRun_zeros]; exact hl) (by simp) h
  rw [regRun_zeros] at h1
  have h2 : regRun (w ++ zeros (16 - w.length)) w = zeros 16 := by
    rw [regRun_self, ← List.replicate_append_replicate.symm]
    congr 1; omega
  have h3 := regRun_inj w _ _ (by simp) (by simp; omega) (h1.trans h2.symm)
  have : true ∈ zeros 16 := by rw [h3]; simp [ht]
  simp at this

theorem regRun_error (r F E : List Bool) (hr : r.length = 16) (hl : F.length = E.length) :
    regRun r (xorL F E) = xorL (regRun r F) (regRun (zeros 16) E) := by
  have := regRun_linear F E r (zeros 16) hl hr (by simp)
  rwa [xorL_zeros _ _ hr] at this

theorem xorL_eq_left {a b : List Bool} (ha : a.length = 16) (hb : b.length = 16)
    (h : xorL a b = a) : b = zeros 16 := by
  rw [xorL_comm] at h
  have h2 : xorL (zeros 16) a = a := by rw [xorL_comm]; exact xorL_zeros _ _ ha
  exact xorL_cancel (by omega) (by simp [ha]) (h.trans h2.symm)

theorem msgMsb_append (a b : List UInt8) : msgMsb (a ++ b) = msgMsb a ++ msgMsb b := by
  simp [msgMsb]
theorem msgLsb_append (a b : List UInt8) : msgLsb (a ++ b) = msgLsb a ++ msgLsb b := by
  simp [msgLsb]

theorem toNat_hi (c : UInt16) : (c >>> 8).toUInt8.toNat = c.toNat / 256 := by
  have : c.toNat < 65536 := c.toNat_lt
  simp [Nat.shiftRight_eq_div_pow]; omega

theorem toNat_lo (c : UInt16) : (c &&& 0xff).toUInt8.toNat = c.toNat % 256 := by
  have h : c.toNat &&& (2 ^ 8 - 1) = c.toNat % 256 := Nat.and_two_pow_sub_one_eq_mod _ _
  have e : (c &&& 0xff).toNat = c.toNat % 256 := by rw [UInt16.toNat_and]; exact h
  rw [UInt16.toNat_toUInt8, e]; omega

theorem toNat_hi' (c : UInt16) : ((c >>> 8) &&& 0xff).toUInt8.toNat = c.toNat / 256 := by
  have hc : c.toNat < 65536 := c.toNat_lt
  rw [toNat_lo]
  simp [Nat.shiftRight_eq_div_pow]; omega

theorem msgdelimFrame_reg (p : List UInt8) : regRun (zeros 16) (msgMsb (msgdelimFrame p)) = zeros 16 := by
  have h0 : zeros 16 = msbBits 16 (0 : UInt16).toNat := by decide
  rw [msgdelimFrame, msgMsb_append, regRun_append, h0, ← crc16_bits]
  have : msgMsb [(crc16 0 p >>> 8).toUInt8, (crc16 0 p &&& 0xff).toUInt8]
      = msbBits 16 (crc16 0 p).toNat := by
    rw [msbBits_split]; simp only [msgMsb, List.flatMap_cons, List.flatMap_nil, List.append_nil,
      toNat_hi, toNat_lo]
  rw [this]
  have := regRun_self (msbBits 16 (crc16 0 p).toNat) []
  rw [List.append_nil, msbBits_length, List.nil_append] at this
  rw [this, ← h0]

/-- A frame with its check value, received unaltered, passes the check. -/
theorem C12_msgdelim_accepts (p : List UInt8) (hp : p ≠ []) : msgdelimCheck (msgdelimFrame p) = true := by
  have h0 : zeros 16 = msbBits 16 (0 : UInt16).toNat := by decide
  have h : msbBits 16 (crc16 0 (msgdelimFrame p)).toNat = msbBits 16 (0 : UInt16).toNat := by
    rw [crc16_bits, ← h0, msgdelimFrame_reg]
  have := (C11_value_unique _ _).1 h
  have hl : 0 < p.length := by cases p <;> simp at hp ⊢
  simp [msgdelimCheck, this]; simp [msgdelimFrame]; omega

/-- **C12, message delimiter layer.**  A frame of any length altered by a non-empty error
inside 16 consecutive bits (bits of each byte highest first) fails the check. -/
theorem C12_msgdelim (p frame' : List UInt8) (e : List Bool) (he : IsBurst e)
    (hl : e.length = (msgMsb (msgdelimFrame p)).length)
    (hf : msgMsb frame' = xorL (msgMsb (msgdelimFrame p)) e) :
    msgdelimCheck frame' = false := by
  have h0 : zeros 16 = msbBits 16 (0 : UInt16).toNat := by decide
  have hne : crc16 0 frame' ≠ 0 := by
    intro hc
    have := crc16_bits frame' 0
    rw [hc, ← h0, hf, regRun_error _ _ _ (by simp) hl.symm, msgdelimFrame_reg, xorL_comm,
      xorL_zeros _ _ (regRun_length _ _ (by simp))] at this
    exact burst_syndrome e he this.symm
  simp [msgdelimCheck, hne]

/-- The value an HDLC frame with a right check value leaves in the register. -/
theorem hdlc_residue (p : List UInt8) (l h : UInt8)
    (hc : ccitt 0xffff p ^^^ (0xffff : UInt16) = (h.toUInt16 <<< (8 : UInt16)) ||| l.toUInt16) :
    regRun (lsbBits 16 0xffff) (msgLsb (p ++ [l, h])) =
      regRun (lsbBits 16 0xffff) (zeros 16) := by
  have hlt : l.toNat < 256 := l.toNat_lt
  have hht : h.toNat < 256 := h.toNat_lt
  have hw : ((h.toUInt16 <<< (8 : UInt16)) ||| l.toUInt16).toNat = h.toNat * 256 + l.toNat := by
    rw [UInt16.toNat_or]
    have h1 : (h.toUInt16 <<< 8).toNat = h.toNat * 2 ^ 8 := by
      simp [Nat.shiftLeft_eq]; omega
    rw [h1, Nat.mul_comm, UInt8.toNat_toUInt16, ← Nat.two_pow_add_eq_or_of_lt hlt, Nat.mul_comm]
  have hcb : lsbBits 16 ((h.toUInt16 <<< (8 : UInt16)) ||| l.toUInt16).toNat = msgLsb [l, h] := by
    rw [lsbBits_split, hw]
    have a1 : (h.toNat * 256 + l.toNat) % 256 = l.toNat := by omega
    have a2 : (h.toNat * 256 + l.toNat) / 256 = h.toNat := by omega
    rw [a1, a2]; simp [msgLsb]
  have hff : ((0xffff : UInt16)).toNat = 0xffff := rfl
  have hb := congrArg (fun x : UInt16 => lsbBits 16 x.toNat) hc
  simp only [hcb, UInt16.toNat_xor, lsbBits_xor, ccitt_bits, hff] at hb
  rw [msgLsb_append, regRun_append]
  -- register = ones xor C, fed with C
  have hR : regRun (lsbBits 16 0xffff) (msgLsb p) = xorL (lsbBits 16 0xffff) (msgLsb [l, h]) := by
    rw [← hb, xorL_left_comm, xorL_self, lsbBits_length,
      xorL_zeros _ _ (regRun_length _ _ (by simp))]
  have hC : (msgLsb [l, h]).length = 16 := by simp [msgLsb]
  rw [hR]
  have := regRun_linear (zeros 16) (msgLsb [l, h]) (lsbBits 16 0xffff) (msgLsb [l, h])
    (by simp [hC]) (by simp) hC
  rw [xorL_comm (zeros 16), xorL_zeros _ _ hC] at this
  rw [this]
  have h2 := regRun_self (msgLsb [l, h]) []
  rw [List.append_nil, List.nil_append, hC] at h2
  rw [h2, xorL_zeros _ _ (regRun_length _ _ (by simp))]

theorem hdlcCheck_cases (f : List UInt8) (h : hdlcCheck f = true) :
    ∃ p l h', p ≠ [] ∧ f = p ++ [l, h'] ∧
      ccitt 0xffff p ^^^ (0xffff : UInt16) = (h'.toUInt16 <<< (8 : UInt16)) ||| l.toUInt16 := by
  simp only [hdlcCheck, Bool.and_eq_true, decide_eq_true_eq, beq_iff_eq] at h
  obtain ⟨h1, h2⟩ := h
  have e : f = f.take (f.length - 2) ++ [f[f.length - 2], f[f.length - 1]] := by
    apply List.ext_getElem
    · simp; omega
    · intro i hi hi'
      by_cases hc : i < f.length - 2
      · rw [List.getElem_append_left (by simp; omega)]; simp
      · rw [List.getElem_append_right (by simp; omega)]
        rcases (by omega : i = f.length - 2 ∨ i = f.length - 1) with rfl | rfl
        · simp
        · have : f.length - 1 - (f.length - 2) = 1 := by omega
          simp [this]
  refine ⟨f.take (f.length - 2), f[f.length - 2], f[f.length - 1], ?_, e, ?_⟩
  · intro h; have := congrArg List.length h; simp at this; omega
  · rw [h2]
    congr 3
    · rw [getElem!_pos _ _ (by omega)]
    · rw [getElem!_pos _ _ (by omega)]

theorem hdlcCheck_of (p : List UInt8) (hp : p ≠ []) (c : UInt16)
    (hc : ccitt 0xffff p ^^^ (0xffff : UInt16) = c) :
    hdlcCheck (p ++ [(c &&& 0xff).toUInt8, ((c >>> 8) &&& 0xff).toUInt8]) = true := by
  have hl : 0 < p.length := by cases p <;> simp at hp ⊢
  simp only [hdlcCheck, Bool.and_eq_true, decide_eq_true_eq, beq_iff_eq]
  have e1 : (p ++ [(c &&& 0xff).toUInt8, ((c >>> 8) &&& 0xff).toUInt8]).length = p.length + 2 := by simp
  refine ⟨by omega, ?_⟩
  rw [e1]
  have a1 : p.length + 2 - 2 = p.length := by omega
  have a2 : p.length + 2 - 1 = p.length + 1 := by omega
  rw [a1, a2, List.take_left, getElem!_pos _ _ (by omega), getElem!_pos _ _ (by omega)]
  rw [List.getElem_append_right (by omega), List.getElem_append_right (by omega)]
  have a3 : p.length + 1 - p.length = 1 := by omega
  simp only [a3, Nat.sub_self, List.getElem_cons_zero, List.getElem_cons_succ]
  rw [hc]
  apply UInt16.toNat_inj.mp
  have hlt := toNat_lo c
  have hht := toNat_hi' c
  have hb : c.toNat < 65536 := c.toNat_lt
  rw [UInt16.toNat_or]
  have h1 : (((c >>> 8) &&& 0xff).toUInt8.toUInt16 <<< 8).toNat = 2 ^ 8 * (c.toNat / 256) := by
    rw [UInt16.toNat_shiftLeft, UInt8.toNat_toUInt16, hht]
    simp [Nat.shiftLeft_eq]; omega
  rw [h1, UInt8.toNat_toUInt16, hlt, ← Nat.two_pow_add_eq_or_of_lt (by omega)]; omega

/-- The HDLC frame, received unaltered, passes the check. -/
theorem C12_hdlc_accepts (p : List UInt8) (hp : p ≠ []) : hdlcCheck (hdlcFrame p) = true :=
  hdlcCheck_of p hp _ rfl

/-- **C12, HDLC (and axfec).**  A frame of any length altered by a non-empty error inside
16 consecutive bits of the line (bits of each byte lowest first) fails the check. -/
theorem C12_hdlc (p frame' : List UInt8) (hp : p ≠ []) (e : List Bool) (he : IsBurst e)
    (hl : e.length = (msgLsb (hdlcFrame p)).length)
    (hf : msgLsb frame' = xorL (msgLsb (hdlcFrame p)) e) :
    hdlcCheck frame' = false := by
  rw [Bool.eq_false_iff]
  intro hc
  obtain ⟨p1, l1, h1, _, e1, c1⟩ := hdlcCheck_cases _ hc
  obtain ⟨p2, l2, h2, _, e2, c2⟩ := hdlcCheck_cases _ (C12_hdlc_accepts p hp)
  have r1 := hdlc_residue p1 l1 h1 c1
  have r2 := hdlc_residue p2 l2 h2 c2
  rw [← e1, hf, regRun_error _ _ _ (by simp) hl.symm] at r1
  rw [← e2] at r2
  rw [r2] at r1
  exact burst_syndrome e he
    (xorL_eq_left (regRun_length _ _ (by simp)) (regRun_length _ _ (by simp)) r1)

/-- A burst across the border of payload and check value. -/
example : msgdelimCheck (msgdelimFrame [1, 2, 3]) = true ∧
    msgdelimCheck ((msgdelimFrame [1, 2, 3]).zipWith (· ^^^ ·) [0, 0, 0x0f, 0xf1, 0]) = false ∧
    hdlcCheck (hdlcFrame [1, 2, 3]) = true ∧
    hdlcCheck ((hdlcFrame [1, 2, 3]).zipWith (· ^^^ ·) [0, 0, 0xf0, 0x8f, 0]) = false := by decide +kernel

example : IsBurst (msgMsb [0, 0, 0x0f, 0xf1, 0]) := ⟨20, [true, true, true, true, true, true, true, true,
  false, false, false, true], 8, by decide, by decide, by decide⟩

/-- 17 bits are too many: the generator itself goes undetected. -/
example : msgdelimCheck ((msgdelimFrame [1, 2, 3]).zipWith (· ^^^ ·) [0, 0, 1, 0x10, 0x21]) = true := by
  decide +kernel

end Gensio.Crc
