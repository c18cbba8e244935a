import Verif.Props.Convcode

/-!
# The stream encoder emits the punctured codeword (C63) and the sizes are exact (C42)
-/

namespace Gensio.Convcode

/-! ### Specification -/

/-- The bits of a byte array, the low bit of each byte first. -/
def byteBits (bytes : List UInt8) : List Bool := bytes.flatMap fun b => bitsOf 8 b.toNat

/-- The bits in what was passed to an output function. -/
def sentBits (sent : List (Nat × Nat)) : List Bool := sent.flatMap fun x => bitsOf x.2 x.1

/-- The bits left after puncturing, where the first one has number `i`; nothing is left out without a pattern. -/
def puncture (p : List Bool) : Nat → List Bool → List Bool
  | _, [] => []
  | i, b :: bs => if p = [] ∨ p.getD (i % p.length) false = true then b :: puncture p (i + 1) bs else puncture p (i + 1) bs

/-! ### Packing bits -/

theorem bitsOf_add (a b v : Nat) : bitsOf (a + b) v = bitsOf a v ++ bitsOf b (v >>> a) := by
  rw [bitsOf, bitsOf, bitsOf, List.range_add, List.map_append, List.map_map]
  congr 1
  apply List.map_congr_left
  intro j _
  simp [Function.comp, Nat.testBit_shiftRight]

theorem bitsOf_congr (n v w : Nat) (h : ∀ j, j < n → v.testBit j = w.testBit j) : bitsOf n v = bitsOf n w := by
  apply List.map_congr_left
  intro j hj
  exact h j (List.mem_range.1 hj)

theorem bitsOf_mod (n m v : Nat) (h : n ≤ m) : bitsOf n (v % 2 ^ m) = bitsOf n v := by
  apply bitsOf_congr
  intro j hj
  rw [Nat.testBit_mod_two_pow]
  simp [show j < m by omega]

theorem testBit_big (r n j : Nat) (hr : r < 2 ^ n) (h : n ≤ j) : r.testBit j = false :=
  Nat.testBit_lt_two_pow (Nat.lt_of_lt_of_le hr (Nat.pow_le_pow_right (by decide) h))

/-- What an output state has been given: everything sent and the bits kept. -/
def Out.stream (o : Out) : List Bool := sentBits o.sent ++ bitsOf o.pos o.bits

/-- Consistent output states. -/
structure Out.Ok (o : Out) : Prop where
  pos : o.pos < 8
  bits : o.bits < 2 ^ o.pos
  sent : ∀ x ∈ o.sent, x.2 = 8 ∧ x.1 < 256

theorem pack_bits (r x p l : Nat) (hr : r < 2 ^ p) (hpl : p + l ≤ 8) :
    bitsOf (p + l) ((r ||| (x <<< p)) % 256) = bitsOf p r ++ bitsOf l x := by
  rw [show (256 : Nat) = 2 ^ 8 from rfl, bitsOf_mod _ _ _ hpl, bitsOf_add]
  congr 1
  · apply bitsOf_congr
    intro j hj
    rw [Nat.testBit_or, Nat.testBit_shiftLeft]
    simp [show ¬ p ≤ j by omega]
  · apply bitsOf_congr
    intro j _
    rw [Nat.testBit_shiftRight, Nat.testBit_or, Nat.testBit_shiftLeft, testBit_big r p _ hr (by omega)]
    simp

theorem outLoop_spec (len : Nat) : ∀ (o : Out) (bits r : Nat), o.pos < 8 → r < 2 ^ o.pos → bits < 2 ^ len →
    o.bits = (r ||| (bits <<< o.pos)) % 256 → (∀ x ∈ o.sent, x.2 = 8 ∧ x.1 < 256) →
    (outLoop o bits len).Ok ∧
      (outLoop o bits len).stream = sentBits o.sent ++ bitsOf o.pos r ++ bitsOf len bits ∧
      (outLoop o bits len).total % 2 ^ 32 = (o.total + len) % 2 ^ 32 := by
  induction len using Nat.strongRecOn with
  | _ len ih =>
    intro o bits r hp hr hb ho hs
    rw [outLoop]
    by_cases h : 8 ≤ o.pos + len ∧ o.pos < 8
    · rw [dif_pos h]
      have hlen : len = (8 - o.pos) + (len - (8 - o.pos)) := by omega
      have hb' : bits >>> (8 - o.pos) < 2 ^ (len - (8 - o.pos)) := by
        rw [Nat.shiftRight_eq_div_pow, Nat.div_lt_iff_lt_mul (Nat.two_pow_pos _), ← Nat.pow_add, Nat.add_comm, ← hlen]
        exact hb
      have key := pack_bits r bits o.pos (8 - o.pos) hr (by omega)
      rw [show o.pos + (8 - o.pos) = 8 by omega, ← ho] at key
      obtain ⟨k1, k2, k3⟩ := ih (len - (8 - o.pos)) (by omega)
        ⟨(bits >>> (8 - o.pos)) % 256, 0, u32 (o.total + (8 - o.pos)), o.sent ++ [(o.bits, 8)]⟩
        (bits >>> (8 - o.pos)) 0 (by simp only; omega) (by simp) hb' (by simp) (by
          intro x hx
          simp only [List.mem_append, List.mem_singleton] at hx
          rcases hx with hx | hx
          · exact hs x hx
          · rw [hx]
            refine ⟨rfl, ?_⟩
            show o.bits < 256
            rw [ho]; exact Nat.mod_lt _ (by decide))
      refine ⟨k1, ?_, ?_⟩
      · rw [k2]
        have e : bitsOf len bits = bitsOf (8 - o.pos) bits ++ bitsOf (len - (8 - o.pos)) (bits >>> (8 - o.pos)) := by
          rw [← bitsOf_add, ← hlen]
        rw [e]
        simp only [sentBits, List.flatMap_append, List.flatMap_cons, List.flatMap_nil, List.append_nil]
        rw [key]
        simp [bitsOf]
      · rw [k3]
        simp only [u32]
        omega
    · rw [dif_neg h]
      have h8 : o.pos + len < 8 := by omega
      have key := pack_bits r bits o.pos len hr (by omega)
      rw [← ho] at key
      refine ⟨⟨h8, ?_, hs⟩, ?_, ?_⟩
      · show o.bits < 2 ^ (o.pos + len)
        rw [ho]
        apply Nat.lt_of_le_of_lt (Nat.mod_le _ _)
        apply Nat.or_lt_two_pow
        · exact Nat.lt_of_lt_of_le hr (Nat.pow_le_pow_right (by decide) (by omega))
        · rw [Nat.shiftLeft_eq, Nat.add_comm, Nat.pow_add]
          exact Nat.mul_lt_mul_of_pos_right hb (Nat.two_pow_pos _)
      · show sentBits o.sent ++ bitsOf (o.pos + len) o.bits = _
        rw [key, List.append_assoc]
      · simp only [u32]
        omega

theorem outputBits_spec (o : Out) (ho : o.Ok) (bits len : Nat) (hb : bits < 2 ^ len) :
    (outputBits o bits len).Ok ∧ (outputBits o bits len).stream = o.stream ++ bitsOf len bits ∧
      (outputBits o bits len).total % 2 ^ 32 = (o.total + len) % 2 ^ 32 := by
  have := outLoop_spec len { o with bits := (o.bits ||| (bits <<< o.pos)) % 256 } bits o.bits ho.pos ho.bits hb rfl ho.sent
  exact this

theorem puncture_nil (i : Nat) (bs : List Bool) : puncture [] i bs = bs := by
  induction bs generalizing i with
  | nil => rfl
  | cons b bs ih => rw [puncture, if_pos (Or.inl rfl), ih]

theorem puncture_append (p : List Bool) (a b : List Bool) : ∀ i,
    puncture p i (a ++ b) = puncture p i a ++ puncture p (i + a.length) b := by
  induction a with
  | nil => intro i; rfl
  | cons x a ih =>
    intro i
    rw [List.cons_append, puncture, puncture, ih, List.length_cons, show i + (a.length + 1) = i + 1 + a.length by omega]
    split <;> rfl

theorem puncNext_mod (p : List Bool) (hp : p ≠ []) (i : Nat) : puncNext p (i % p.length) = (i + 1) % p.length := by
  have hl : 0 < p.length := List.length_pos_iff.2 hp
  have hi := Nat.mod_lt i hl
  rw [puncNext, Nat.add_mod i 1]
  split
  · rename_i h
    have : i % p.length = p.length - 1 := by omega
    by_cases h1 : p.length = 1
    · rw [h1]; omega
    · rw [Nat.mod_eq_of_lt (show 1 < p.length by omega), this, show p.length - 1 + 1 = p.length by omega, Nat.mod_self]
  · rename_i h
    rw [Nat.mod_eq_of_lt (show 1 < p.length by omega), Nat.mod_eq_of_lt (show i % p.length + 1 < p.length by omega)]

theorem outputPunc_spec (p : List Bool) (hp : p ≠ []) (len : Nat) : ∀ (o : Out) (i bits : Nat), o.Ok →
    ∃ o', outputPunc p len o (i % p.length) bits = some (o', (i + len) % p.length) ∧ o'.Ok ∧
      o'.stream = o.stream ++ puncture p i (bitsOf len bits) ∧
      o'.total % 2 ^ 32 = (o.total + (puncture p i (bitsOf len bits)).length) % 2 ^ 32 := by
  have hl : 0 < p.length := List.length_pos_iff.2 hp
  induction len with
  | zero =>
    intro o i bits ho
    exact ⟨o, rfl, ho, by simp [bitsOf, puncture], by simp [bitsOf, puncture]⟩
  | succ len ih =>
    intro o i bits ho
    have hi := Nat.mod_lt i hl
    have hg : p[i % p.length]? = some (p.getD (i % p.length) false) := by
      rw [List.getD_eq_getElem?_getD, List.getElem?_eq_getElem hi]; rfl
    have hb1 : bitsOf 1 (bits &&& 1) = [bits.testBit 0] := by
      rw [bit0]
      cases bits.testBit 0 <;> rfl
    have hlt : bits &&& 1 < 2 ^ 1 := by rw [Nat.and_one_is_mod]; omega
    rw [outputPunc, hg]
    simp only [Option.bind_eq_bind, Option.bind_some]
    rw [puncNext_mod p hp, bitsOf_succ, puncture]
    cases hpi : p.getD (i % p.length) false with
    | true =>
      obtain ⟨o1, o2, o3⟩ := outputBits_spec o ho (bits &&& 1) 1 hlt
      obtain ⟨o', e1, e2, e3, e4⟩ := ih (outputBits o (bits &&& 1) 1) (i + 1) (bits >>> 1) o1
      refine ⟨o', ?_, e2, ?_, ?_⟩
      · rw [if_pos rfl, e1]; congr 2; congr 1; omega
      · rw [e3, o2, hb1, if_pos (Or.inr rfl)]; simp
      · rw [e4, if_pos (Or.inr rfl), List.length_cons]; omega
    | false =>
      obtain ⟨o', e1, e2, e3, e4⟩ := ih o (i + 1) (bits >>> 1) ho
      refine ⟨o', ?_, e2, ?_, ?_⟩
      · rw [if_neg (by decide), e1]; congr 2; congr 1; omega
      · rw [e3, if_neg (by simp [hp])]
      · rw [e4, if_neg (by simp [hp])]

/-- The encoder after the inputs `xs`, starting with register `h` and output number `i`. -/
structure EncRel (c : Code) (p : List Bool) (e : Enc) (h : List Bool) (i : Nat) (s : List Bool) : Prop where
  rel : Rel c e.state h
  ok : e.out.Ok
  ppos : p ≠ [] → e.ppos = i % p.length
  stream : e.out.stream = s
  total : e.out.total % 2 ^ 32 = s.length % 2 ^ 32

theorem encodeBit_spec (c : Code) (hk : c.Ok) (p : List Bool) (e : Enc) (h : List Bool) (i : Nat) (s : List Bool)
    (hr : EncRel c p e h i s) (b : Nat) (hb : b < 2) :
    ∃ e', encodeBit c p e b = some e' ∧
      EncRel c p e' (regBit c (toB b) h :: h) (i + c.n) (s ++ puncture p i (outSym c (toB b) h)) := by
  have hcv := convert_eq c hk e.state b h hr.rel hb
  have hnx := rel_next c hk e.state b h hr.rel hb
  have hlt := convert_lt c b e.state hb hk.polys1
  by_cases hp : p = []
  · subst hp
    obtain ⟨o1, o2, o3⟩ := outputBits_spec e.out hr.ok (c.convert b e.state) c.n hlt
    refine ⟨_, by rw [encodeBit, if_pos rfl], hnx, o1, by simp, ?_, ?_⟩
    · rw [puncture_nil, ← hcv, ← hr.stream]; exact o2
    · show (outputBits e.out (c.convert b e.state) c.n).total % 2 ^ 32 = _
      rw [o3, puncture_nil, List.length_append]
      have := hr.total
      simp only [outSym, List.length_map, List.length_range]
      omega
  · obtain ⟨o', e1, e2, e3, e4⟩ := outputPunc_spec p hp c.n e.out i (c.convert b e.state) hr.ok
    refine ⟨⟨c.next b e.state, o', (i + c.n) % p.length⟩, ?_, hnx, e2, fun _ => rfl, ?_, ?_⟩
    · rw [encodeBit, if_neg hp, hr.ppos hp, e1]; rfl
    · rw [← hcv, ← hr.stream]; exact e3
    · show o'.total % 2 ^ 32 = _
      rw [e4, hcv, List.length_append]
      have := hr.total
      omega

/-- The flattened codeword. -/
def cwBits (c : Code) (h xs : List Bool) : List Bool := (codewordFrom c h xs).flatten

/-- The register after the inputs. -/
def regAfter (c : Code) : List Bool → List Bool → List Bool
  | h, [] => h
  | h, x :: xs => regAfter c (regBit c x h :: h) xs

theorem cwBits_append (c : Code) (xs ys : List Bool) : ∀ h,
    cwBits c h (xs ++ ys) = cwBits c h xs ++ cwBits c (regAfter c h xs) ys := by
  induction xs with
  | nil => intro h; rfl
  | cons x xs ih =>
    intro h
    have := ih (regBit c x h :: h)
    simp only [cwBits, List.cons_append, codewordFrom, List.flatten_cons, regAfter, List.append_assoc] at this ⊢
    rw [this]

theorem cwBits_length (c : Code) (xs : List Bool) : ∀ h, (cwBits c h xs).length = c.n * xs.length := by
  induction xs with
  | nil => intro h; rfl
  | cons x xs ih =>
    intro h
    have := ih (regBit c x h :: h)
    simp only [cwBits, codewordFrom, List.flatten_cons, List.length_append, List.length_cons, Nat.mul_add] at this ⊢
    rw [this]
    simp [outSym]
    omega

theorem byteLoop_spec (c : Code) (hk : c.Ok) (p : List Bool) (n : Nat) : ∀ (byte : Nat) (e : Enc) (h : List Bool)
    (i : Nat) (s : List Bool), EncRel c p e h i s →
    ∃ e', byteLoop c p n byte e = some e' ∧
      EncRel c p e' (regAfter c h (bitsOf n byte)) (i + c.n * n) (s ++ puncture p i (cwBits c h (bitsOf n byte))) := by
  induction n with
  | zero => intro byte e h i s hr; exact ⟨e, rfl, by simpa [bitsOf, cwBits, codewordFrom, puncture, regAfter] using hr⟩
  | succ n ih =>
    intro byte e h i s hr
    have hb : byte &&& 1 < 2 := by rw [Nat.and_one_is_mod]; omega
    have htb : toB (byte &&& 1) = byte.testBit 0 := by
      rw [bit0]; cases byte.testBit 0 <;> rfl
    obtain ⟨e1, f1, r1⟩ := encodeBit_spec c hk p e h i s hr (byte &&& 1) hb
    obtain ⟨e2, f2, r2⟩ := ih (byte >>> 1) e1 _ _ _ r1
    refine ⟨e2, by rw [byteLoop, f1]; exact f2, ?_⟩
    rw [htb] at r2
    rw [bitsOf_succ]
    have : cwBits c h (byte.testBit 0 :: bitsOf n (byte >>> 1)) =
        outSym c (byte.testBit 0) h ++ cwBits c (regBit c (byte.testBit 0) h :: h) (bitsOf n (byte >>> 1)) := rfl
    rw [this, puncture_append, ← List.append_assoc, show (outSym c (byte.testBit 0) h).length = c.n by simp [outSym],
      show i + c.n * (n + 1) = i + c.n + c.n * n by rw [Nat.mul_add]; omega]
    exact r2

theorem encodeData_spec (c : Code) (hk : c.Ok) (p : List Bool) (bytes : List UInt8) : ∀ (nbits : Nat) (e : Enc)
    (h : List Bool) (i : Nat) (s : List Bool), EncRel c p e h i s → nbits ≤ 8 * bytes.length →
    ∃ e', encodeData c p bytes nbits e = some e' ∧
      EncRel c p e' (regAfter c h ((byteBits bytes).take nbits)) (i + c.n * nbits)
        (s ++ puncture p i (cwBits c h ((byteBits bytes).take nbits))) := by
  induction bytes with
  | nil =>
    intro nbits e h i s hr hn
    have : nbits = 0 := by simpa using hn
    subst this
    exact ⟨e, rfl, by simpa [byteBits, cwBits, codewordFrom, puncture, regAfter] using hr⟩
  | cons b bytes ih =>
    intro nbits e h i s hr hn
    have hbb : byteBits (b :: bytes) = bitsOf 8 b.toNat ++ byteBits bytes := rfl
    rw [encodeData]
    by_cases h8 : 8 ≤ nbits
    · rw [if_pos h8]
      obtain ⟨e1, f1, r1⟩ := byteLoop_spec c hk p 8 b.toNat e h i s hr
      obtain ⟨e2, f2, r2⟩ := ih (nbits - 8) e1 _ _ _ r1 (by simp at hn; omega)
      refine ⟨e2, by rw [f1]; exact f2, ?_⟩
      have et : (byteBits (b :: bytes)).take nbits = bitsOf 8 b.toNat ++ (byteBits bytes).take (nbits - 8) := by
        rw [hbb, List.take_append, List.take_of_length_le (by rw [bitsOf_length]; exact h8), bitsOf_length]
      have er : ∀ (xs ys h : List Bool), regAfter c h (xs ++ ys) = regAfter c (regAfter c h xs) ys := by
        intro xs
        induction xs with
        | nil => intro ys h; rfl
        | cons x xs ih => intro ys h; exact ih ys _
      rw [et, cwBits_append, puncture_append, cwBits_length, bitsOf_length, ← List.append_assoc, er,
        show i + c.n * nbits = i + c.n * 8 + c.n * (nbits - 8) by rw [Nat.mul_sub]; have := Nat.mul_le_mul_left c.n h8; omega]
      exact r2
    · rw [if_neg h8]
      obtain ⟨e1, f1, r1⟩ := byteLoop_spec c hk p nbits b.toNat e h i s hr
      refine ⟨e1, f1, ?_⟩
      have et : (byteBits (b :: bytes)).take nbits = bitsOf nbits b.toNat := by
        rw [hbb, List.take_append_of_le_length (by rw [bitsOf_length]; omega)]
        conv => lhs; rw [show 8 = nbits + (8 - nbits) by omega, bitsOf_add]
        rw [List.take_append_of_le_length (by rw [bitsOf_length]; omega), List.take_of_length_le (by rw [bitsOf_length]; omega)]
      rw [et]
      exact r1

theorem tailLoop_spec (c : Code) (hk : c.Ok) (p : List Bool) (n : Nat) : ∀ (e : Enc) (h : List Bool)
    (i : Nat) (s : List Bool), EncRel c p e h i s →
    ∃ e' h', tailLoop c p n e = some e' ∧
      EncRel c p e' h' (i + c.n * n) (s ++ puncture p i (cwBits c h (List.replicate n false))) := by
  induction n with
  | zero => intro e h i s hr; exact ⟨e, h, rfl, by simpa [cwBits, codewordFrom, puncture] using hr⟩
  | succ n ih =>
    intro e h i s hr
    obtain ⟨e1, f1, r1⟩ := encodeBit_spec c hk p e h i s hr 0 (by decide)
    obtain ⟨e2, h2, f2, r2⟩ := ih e1 _ _ _ r1
    refine ⟨e2, h2, by rw [tailLoop, f1]; exact f2, ?_⟩
    have : cwBits c h (List.replicate (n + 1) false) =
        outSym c false h ++ cwBits c (regBit c false h :: h) (List.replicate n false) := rfl
    rw [this, puncture_append, ← List.append_assoc, show (outSym c false h).length = c.n by simp [outSym],
      show i + c.n * (n + 1) = i + c.n + c.n * n by rw [Nat.mul_add]; omega]
    exact r2

theorem encRel_init (c : Code) (p : List Bool) : EncRel c p Enc.init [] 0 [] :=
  ⟨rel_init c, ⟨by decide, by decide, by intro x hx; simp [Enc.init] at hx⟩, fun _ => (Nat.zero_mod _).symm, rfl, rfl⟩

/-- **C63**: for every code accepted by `setup_convcode1`, every puncture pattern and every message, the encoder emits
exactly the codeword of the message followed by its tail of zeros, as defined by the polynomials and the pattern,
packed into bytes with the low bit first; only the last output is shorter than a byte; and `total_out_bits` is the
number of bits emitted (modulo 2^32). -/
theorem C63_encoder (c : Code) (hk : c.Ok) (p : List Bool) (bytes : List UInt8) (nbits : Nat)
    (hn : nbits ≤ 8 * bytes.length) :
    ∃ sent total, ((encodeData c p bytes nbits Enc.init).bind fun e => encodeFinish c p e) = some (sent, total) ∧
      sentBits sent =
        puncture p 0 (codeword c ((byteBits bytes).take nbits ++ List.replicate c.tailBits false)).flatten ∧
      (∀ x ∈ sent, x.2 ≤ 8 ∧ x.1 < 256) ∧ (∀ x ∈ sent.dropLast, x.2 = 8) ∧
      total % 2 ^ 32 = (sentBits sent).length % 2 ^ 32 := by
  obtain ⟨e1, f1, r1⟩ := encodeData_spec c hk p bytes nbits _ _ _ _ (encRel_init c p) hn
  obtain ⟨e2, h2, f2, r2⟩ := tailLoop_spec c hk p c.tailBits e1 _ _ _ r1
  have hlen : ((byteBits bytes).take nbits).length = nbits := by
    have : ∀ bs : List UInt8, (byteBits bs).length = 8 * bs.length := by
      intro bs
      induction bs with
      | nil => rfl
      | cons b bs ih =>
        have : byteBits (b :: bs) = bitsOf 8 b.toNat ++ byteBits bs := rfl
        rw [this, List.length_append, bitsOf_length, ih, List.length_cons]; omega
    rw [List.length_take, this]; omega
  have hstream : e2.out.stream =
      puncture p 0 (codeword c ((byteBits bytes).take nbits ++ List.replicate c.tailBits false)).flatten := by
    rw [r2.stream, codeword]
    show _ = puncture p 0 (cwBits c [] _)
    rw [cwBits_append, puncture_append, cwBits_length, hlen, List.nil_append]
  have h8 := r2.ok.pos
  have hbits : e2.out.bits < 256 :=
    Nat.lt_of_lt_of_le r2.ok.bits (Nat.le_trans (Nat.pow_le_pow_right (by decide) (Nat.le_of_lt h8)) (by decide))
  refine ⟨_, _, by rw [f1]; show encodeFinish c p e1 = _; rw [encodeFinish, f2]; rfl, ?_, ?_, ?_, ?_⟩
  · rw [← hstream, Out.stream]
    split
    · simp [sentBits]
    · have : e2.out.pos = 0 := by omega
      rw [this]; simp [bitsOf]
  · intro x hx
    split at hx
    · rw [List.mem_append, List.mem_singleton] at hx
      rcases hx with hx | hx
      · exact ⟨by have := (r2.ok.sent x hx).1; omega, (r2.ok.sent x hx).2⟩
      · rw [hx]; exact ⟨Nat.le_of_lt h8, hbits⟩
    · exact ⟨by have := (r2.ok.sent x hx).1; omega, (r2.ok.sent x hx).2⟩
  · intro x hx
    split at hx
    · rw [List.dropLast_concat] at hx
      exact (r2.ok.sent x hx).1
    · exact (r2.ok.sent x (List.dropLast_subset _ hx)).1
  · have e : sentBits (if 0 < e2.out.pos then e2.out.sent ++ [(e2.out.bits, e2.out.pos)] else e2.out.sent) =
        e2.out.stream := by
      rw [Out.stream]
      split
      · simp [sentBits]
      · have : e2.out.pos = 0 := by omega
        rw [this]; simp [bitsOf]
    rw [e, r2.total, r2.stream]

/-- The byte 1 with a code of constraint length 3: 20 bits. -/
example : ((encodeData code75 [] [1] 8 Enc.init).bind fun e => encodeFinish code75 [] e) =
    some ([(0x37, 8), (0, 8), (0, 4)], 20) := by decide +kernel
/-- The same with every fourth bit left out. -/
example : ((encodeData code75 [true, true, true, false] [1] 8 Enc.init).bind fun e =>
    encodeFinish code75 [true, true, true, false] e) = some ([(0x1f, 8), (0, 7)], 15) := by decide +kernel

end Gensio.Convcode
