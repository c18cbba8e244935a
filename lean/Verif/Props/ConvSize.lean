import Verif.Props.ConvEnc

/-!
# Sizes of convolutional codes (C42)
-/

namespace Gensio.Convcode

theorem puncture_shift (p : List Bool) (bs : List Bool) : ∀ i, puncture p (i + p.length) bs = puncture p i bs := by
  induction bs with
  | nil => intro i; rfl
  | cons b bs ih =>
    intro i
    rw [puncture, puncture, Nat.add_mod_right, show i + p.length + 1 = i + 1 + p.length by omega, ih]

theorem puncture_block (p : List Bool) (hp : p ≠ []) (bs : List Bool) : ∀ i, i + bs.length ≤ p.length →
    (puncture p i bs).length = ones ((p.drop i).take bs.length) := by
  induction bs with
  | nil => intro i _; simp [puncture, ones]
  | cons b bs ih =>
    intro i hi
    rw [List.length_cons] at hi
    have hlt : i < p.length := by omega
    rw [puncture, Nat.mod_eq_of_lt hlt, List.drop_eq_getElem_cons hlt, List.length_cons, List.take_succ_cons]
    have hg : p.getD i false = p[i] := by rw [List.getD_eq_getElem?_getD, List.getElem?_eq_getElem hlt]; rfl
    have := ih (i + 1) (by omega)
    rw [hg]
    cases hpi : p[i] with
    | true => rw [if_pos (Or.inr rfl), List.length_cons, this]; simp [ones]
    | false => rw [if_neg (by simp [hp]), this]; simp [ones]

theorem puncture_length (p : List Bool) (hp : p ≠ []) (q : Nat) : ∀ (bs : List Bool) (r : Nat), r < p.length →
    bs.length = q * p.length + r → (puncture p 0 bs).length = q * ones p + ones (p.take r) := by
  induction q with
  | zero =>
    intro bs r hr hl
    rw [puncture_block p hp bs 0 (by omega), hl]
    simp
  | succ q ih =>
    intro bs r hr hl
    rw [Nat.succ_mul] at hl
    rw [← List.take_append_drop p.length bs, puncture_append, List.length_append]
    have hl1 : (bs.take p.length).length = p.length := by rw [List.length_take]; omega
    rw [hl1, puncture_shift, ih (bs.drop p.length) r hr (by rw [List.length_drop]; omega),
      puncture_block p hp _ 0 (by omega), hl1, List.drop_zero, List.take_length, Nat.succ_mul]
    omega

theorem ones_le (p : List Bool) : ones p ≤ p.length := List.count_le_length

theorem ones_take_le (p : List Bool) (r : Nat) : ones (p.take r) ≤ ones p := (List.take_sublist r p).count_le true

theorem kept_le (p : List Bool) (L : Nat) (hp : p ≠ []) : L / p.length * ones p + ones (p.take (L % p.length)) ≤ L := by
  have h1 := ones_le p
  have h2 := ones_le (p.take (L % p.length))
  have h3 : (p.take (L % p.length)).length ≤ L % p.length := by rw [List.length_take]; omega
  have h4 := Nat.mul_le_mul_left (L / p.length) h1
  have h5 := Nat.div_add_mod L p.length
  rw [Nat.mul_comm] at h5
  omega

/-- The bits before puncturing. -/
def rawSize (c : Code) (nbits : Nat) : Nat := c.n * (nbits + c.tailBits)

theorem encodedSize_raw (c : Code) (p : List Bool) (nbits : Nat) (hL : rawSize c nbits < 2 ^ 32) :
    encodedSize nbits c.n c.k c.tail p = if p = [] then rawSize c nbits else
      rawSize c nbits / p.length * ones p + ones (p.take (rawSize c nbits % p.length)) := by
  have e : (if c.tail = true then u32 (u32 (nbits * c.n) + u32 (c.n * (c.k - 1))) else u32 (nbits * c.n)) =
      rawSize c nbits := by
    simp only [rawSize, Code.tailBits, Nat.mul_add] at hL ⊢
    rw [Nat.mul_comm nbits c.n]
    cases ht : c.tail
    · simp only [ht, if_neg Bool.false_ne_true, Nat.mul_zero, u32] at hL ⊢
      omega
    · simp only [ht, if_true, u32] at hL ⊢
      omega
  simp only [encodedSize]
  rw [e]
  split
  · rfl
  · rename_i hp
    have := kept_le p (rawSize c nbits) hp
    rw [u32, Nat.mod_eq_of_lt (by omega)]

/-- **C42, encoding**: for every code, message and puncture pattern the predicted size is the number of bits in the
output of the encoder and the reported `total_out_bits`, as long as the size before puncturing fits 32 bits. -/
theorem C42_encoded_size (c : Code) (hk : c.Ok) (p : List Bool) (bytes : List UInt8) (nbits : Nat)
    (hn : nbits ≤ 8 * bytes.length) (hL : rawSize c nbits < 2 ^ 32) :
    ∃ sent total, ((encodeData c p bytes nbits Enc.init).bind fun e => encodeFinish c p e) = some (sent, total) ∧
      encodedSize nbits c.n c.k c.tail p = (sentBits sent).length ∧
      total % 2 ^ 32 = encodedSize nbits c.n c.k c.tail p := by
  obtain ⟨sent, total, h1, h2, _, _, h5⟩ := C63_encoder c hk p bytes nbits hn
  have hbl : ∀ bs : List UInt8, (byteBits bs).length = 8 * bs.length := by
    intro bs
    induction bs with
    | nil => rfl
    | cons b bs ih =>
      have : byteBits (b :: bs) = bitsOf 8 b.toNat ++ byteBits bs := rfl
      rw [this, List.length_append, bitsOf_length, ih, List.length_cons]; omega
  have hraw : (codeword c ((byteBits bytes).take nbits ++ List.replicate c.tailBits false)).flatten.length =
      rawSize c nbits := by
    show (cwBits c [] _).length = _
    rw [cwBits_length, rawSize, List.length_append, List.length_take, hbl, List.length_replicate]
    congr 1; omega
  have hlen : (sentBits sent).length = encodedSize nbits c.n c.k c.tail p := by
    rw [h2, encodedSize_raw c p nbits hL]
    by_cases hp : p = []
    · rw [if_pos hp, hp, puncture_nil, hraw]
    · rw [if_neg hp]
      apply puncture_length p hp
      · exact Nat.mod_lt _ (List.length_pos_iff.2 hp)
      · rw [hraw, Nat.mul_comm, Nat.div_add_mod]
  have hle : encodedSize nbits c.n c.k c.tail p < 2 ^ 32 := by
    rw [encodedSize_raw c p nbits hL]
    split
    · exact hL
    · rename_i hp
      have := kept_le p (rawSize c nbits) hp
      omega
  refine ⟨sent, total, h1, hlen.symm, ?_⟩
  rw [h5, hlen, Nat.mod_eq_of_lt hle]

theorem dec_end (c : Code) (hk : c.Ok) (nbits : Nat) (hL : rawSize c nbits < 2 ^ 32) :
    (if rawSize c nbits % c.n ≠ 0 then some none
      else some (some (if c.tail then u32 (rawSize c nbits / c.n + 2 ^ 32 - (c.k - 1)) else rawSize c nbits / c.n))) =
      some (some nbits) := by
  have hn : 0 < c.n := hk.polys1
  have hmod : rawSize c nbits % c.n = 0 := by rw [rawSize]; exact Nat.mul_mod_right _ _
  have hdiv : rawSize c nbits / c.n = nbits + c.tailBits := by rw [rawSize]; exact Nat.mul_div_cancel_left _ hn
  rw [if_neg (by omega), hdiv]
  have hlt : nbits + c.tailBits < 2 ^ 32 := by
    rw [rawSize] at hL
    exact Nat.lt_of_le_of_lt (Nat.le_mul_of_pos_left _ hn) hL
  have hk16 := hk.k16
  cases ht : c.tail
  · simp [Code.tailBits, ht]
  · have e : c.tailBits = c.k - 1 := by simp [Code.tailBits, ht]
    rw [e] at hlt ⊢
    simp only [if_true, u32]
    congr 2
    omega

/-- **C42, decoding without puncturing**: the computed message size is the size of the message. -/
theorem C42_decoded_size (c : Code) (hk : c.Ok) (nbits : Nat) (hL : rawSize c nbits < 2 ^ 32) :
    decodedSize (encodedSize nbits c.n c.k c.tail []) c.n c.k c.tail [] = some (some nbits) := by
  rw [encodedSize_raw c [] nbits hL, if_pos rfl, decodedSize, if_pos rfl]
  exact dec_end c hk nbits hL

theorem decLoop1_spec (p : List Bool) : ∀ (r i osize : Nat), r ≤ p.length →
    ∃ m, m ≤ r ∧ decLoop1 p (ones (p.take r)) i osize = some (i + m, osize + m, p.drop m) ∧
      ∀ j, m ≤ j → j < r → p.getD j false = false := by
  induction p with
  | nil => intro r i osize hr; exact ⟨0, by omega, by simp [ones, decLoop1], by intro j _ _; simp⟩
  | cons b p ih =>
    intro r i osize hr
    cases r with
    | zero => exact ⟨0, by omega, by simp [ones, decLoop1], by intro j _ h; omega⟩
    | succ r =>
      obtain ⟨m, h1, h2, h3⟩ := ih r (i + 1) (osize + 1) (by simpa using hr)
      by_cases h0 : ones ((b :: p).take (r + 1)) = 0
      · refine ⟨0, by omega, by rw [h0]; simp [decLoop1], ?_⟩
        intro j _ hj
        rw [ones, List.count_eq_zero] at h0
        cases hg : (b :: p).getD j false with
        | false => rfl
        | true =>
          exfalso
          apply h0
          have hlt : j < (b :: p).length := by
            apply Classical.byContradiction
            intro hge
            rw [List.getD_eq_getElem?_getD, List.getElem?_eq_none (by omega)] at hg
            simp at hg
          rw [List.getD_eq_getElem?_getD, List.getElem?_eq_getElem hlt] at hg
          rw [List.mem_take_iff_getElem]
          exact ⟨j, by omega, hg⟩
      · refine ⟨m + 1, by omega, ?_, ?_⟩
        · obtain ⟨t, ht⟩ : ∃ t, ones ((b :: p).take (r + 1)) = t + 1 := ⟨_, (Nat.succ_pred_eq_of_ne_zero h0).symm⟩
          rw [ht, decLoop1]
          have : (if b then t else t + 1) = ones (p.take r) := by
            rw [List.take_succ_cons, ones, List.count_cons] at ht
            rw [ones]
            cases b <;> simp at ht ⊢ <;> omega
          rw [this, h2]
          simp only [List.drop_succ_cons, Option.some.injEq, Prod.mk.injEq, and_true]
          omega
        · intro j hj hjr
          cases j with
          | zero => omega
          | succ j => simpa using h3 j (by omega) (by omega)

theorem decLoop2_spec (n : Nat) : ∀ (d : Nat) (p : List Bool) (osize : Nat), d ≤ p.length → d < n →
    (∀ j, j < d → p.getD j false = false) → (osize + d) % n = 0 → decLoop2 n p osize = osize + d := by
  intro d
  induction d with
  | zero =>
    intro p osize _ _ _ hm
    cases p with
    | nil => rfl
    | cons b p => rw [decLoop2, if_neg (by intro h; exact h.1 hm)]; rfl
  | succ d ih =>
    intro p osize hl hd hz hm
    cases p with
    | nil => simp at hl
    | cons b p =>
      have hb : b = false := by simpa using hz 0 (by omega)
      have hne : osize % n ≠ 0 := by
        intro h0
        have : (osize + (d + 1)) % n = d + 1 := by
          rw [Nat.add_mod, h0, Nat.zero_add, Nat.mod_mod, Nat.mod_eq_of_lt hd]
        omega
      rw [decLoop2, if_pos ⟨hne, hb⟩, ih p (osize + 1) (by simpa using hl) (by omega)
        (fun j hj => by simpa using hz (j + 1) (by omega)) (by rw [← hm]; congr 1; omega)]
      omega

/-- A pattern made of whole symbols, each of which keeps at least one bit. -/
structure GoodPattern (n : Nat) (p : List Bool) : Prop where
  whole : p.length % n = 0
  kept : ∀ s, (s + 1) * n ≤ p.length → ∃ j, s * n ≤ j ∧ j < (s + 1) * n ∧ p.getD j false = true

/-- **C42, decoding with puncturing (what holds)**: if the pattern consists of whole symbols each of which keeps a
bit, the computed message size is the size of the message.  For other patterns it need not be
(`C42_decoded_size_violated`, `C42_decoded_size_divzero_violated`). -/
theorem C42_decoded_size_punctured_partial (c : Code) (hk : c.Ok) (p : List Bool) (hp : p ≠ []) (hg : GoodPattern c.n p)
    (nbits : Nat) (hL : rawSize c nbits < 2 ^ 32) :
    decodedSize (encodedSize nbits c.n c.k c.tail p) c.n c.k c.tail p = some (some nbits) := by
  have hn : 0 < c.n := hk.polys1
  have hl : 0 < p.length := List.length_pos_iff.2 hp
  have hr := Nat.mod_lt (rawSize c nbits) hl
  have hraw : rawSize c nbits % c.n = 0 := by rw [rawSize]; exact Nat.mul_mod_right _ _
  obtain ⟨w, hw⟩ : ∃ w, p.length = c.n * w := ⟨p.length / c.n, by have := Nat.div_add_mod p.length c.n; have := hg.whole; omega⟩
  -- the position in the pattern is at the start of a symbol
  have hrn : rawSize c nbits % p.length % c.n = 0 := by
    rw [hw, Nat.mod_mul_right_mod]; exact hraw
  obtain ⟨s, hs⟩ : ∃ s, rawSize c nbits % p.length = s * c.n :=
    ⟨rawSize c nbits % p.length / c.n, by
      have := Nat.div_add_mod (rawSize c nbits % p.length) c.n
      rw [hrn, Nat.add_zero, Nat.mul_comm] at this
      exact this.symm⟩
  -- the rest of the pattern keeps a bit
  have hlt : ones (p.take (rawSize c nbits % p.length)) < ones p := by
    have hle : (s + 1) * c.n ≤ p.length := by
      rw [hw] at hr ⊢
      rw [← hw, hs] at hr
      rw [hw, Nat.mul_comm c.n w] at hr
      have : s < w := Nat.lt_of_mul_lt_mul_right hr
      rw [Nat.mul_comm c.n w]
      exact Nat.mul_le_mul_right _ this
    obtain ⟨j, j1, j2, j3⟩ := hg.kept s hle
    have hj : j < p.length := by omega
    conv => rhs; rw [← List.take_append_drop (rawSize c nbits % p.length) p]
    simp only [ones, List.count_append]
    have : 0 < (p.drop (rawSize c nbits % p.length)).count true := by
      rw [List.count_pos_iff, List.mem_iff_getElem?]
      refine ⟨j - rawSize c nbits % p.length, ?_⟩
      rw [List.getElem?_drop, show rawSize c nbits % p.length + (j - rawSize c nbits % p.length) = j by omega,
        List.getElem?_eq_getElem hj]
      rw [List.getD_eq_getElem?_getD, List.getElem?_eq_getElem hj] at j3
      exact congrArg some j3
    omega
  rw [encodedSize_raw c p nbits hL, if_neg hp, decodedSize, if_neg hp, if_neg (by omega)]
  generalize hqd : rawSize c nbits / p.length = q
  have hqr : rawSize c nbits = q * p.length + rawSize c nbits % p.length := by
    have := Nat.div_add_mod (rawSize c nbits) p.length
    rw [hqd, Nat.mul_comm] at this
    omega
  have hd1 : (q * ones p + ones (p.take (rawSize c nbits % p.length))) / ones p = q := by
    rw [Nat.mul_comm, Nat.mul_add_div (by omega), Nat.div_eq_of_lt hlt, Nat.add_zero]
  have hd2 : (q * ones p + ones (p.take (rawSize c nbits % p.length))) % ones p =
      ones (p.take (rawSize c nbits % p.length)) := by
    rw [Nat.mul_comm, Nat.mul_add_mod, Nat.mod_eq_of_lt hlt]
  obtain ⟨m, m1, m2, m3⟩ := decLoop1_spec p (rawSize c nbits % p.length) 0 (q * p.length) (by omega)
  have hsmall : rawSize c nbits % p.length - m < c.n := by
    by_cases h0 : s = 0
    · subst h0; omega
    · obtain ⟨t, rfl⟩ : ∃ t, s = t + 1 := ⟨s - 1, by omega⟩
      obtain ⟨j, j1, j2, j3⟩ := hg.kept t (by omega)
      have : j < m := by
        apply Classical.byContradiction
        intro hge
        rw [m3 j (by omega) (by omega)] at j3
        exact Bool.noConfusion j3
      rw [Nat.succ_mul] at hs
      omega
  have h2 := decLoop2_spec c.n (rawSize c nbits % p.length - m) (p.drop m) (q * p.length + m)
    (by rw [List.length_drop]; omega) hsmall
    (by
      intro j hj
      have := m3 (m + j) (by omega) (by omega)
      rw [List.getD_eq_getElem?_getD] at this ⊢
      rw [List.getElem?_drop]
      exact this)
    (by rw [show q * p.length + m + (rawSize c nbits % p.length - m) = rawSize c nbits by omega]; exact hraw)
  rw [hd1, hd2, m2]
  simp only [Option.bind_eq_bind, Option.bind_some]
  rw [h2, show q * p.length + m + (rawSize c nbits % p.length - m) = rawSize c nbits by omega]
  exact dec_end c hk nbits hL

/-- **C42 is violated** for patterns that do not consist of whole symbols: the size of the encoding of one bit is
refused by the decoder. -/
theorem C42_decoded_size_violated :
    ∃ (c : Code) (p : List Bool) (nbits : Nat), c.Ok ∧ true ∈ p ∧
      decodedSize (encodedSize nbits c.n c.k c.tail p) c.n c.k c.tail p = some none :=
  ⟨⟨3, [7, 5], false, false⟩, [true, true, false], 1, ⟨by decide, by decide, by decide, by decide⟩, by decide,
    by decide +kernel⟩

/-- **C42 is violated** for a pattern of whole symbols with one that is left out completely: the size of a message of
one bit is computed as two bits. -/
theorem C42_decoded_size_skipped_violated :
    ∃ (c : Code) (p : List Bool), c.Ok ∧ p.length % c.n = 0 ∧ true ∈ p ∧
      decodedSize (encodedSize 1 c.n c.k c.tail p) c.n c.k c.tail p = some (some 2) :=
  ⟨⟨3, [7, 5], false, false⟩, [true, true, false, false], ⟨by decide, by decide, by decide, by decide⟩, by decide,
    by decide, by decide +kernel⟩

/-- **C42 is violated** for a pattern that leaves out everything: division by zero for every size. -/
theorem C42_decoded_size_divzero_violated (size n k len : Nat) (tail : Bool) (hl : 0 < len) :
    decodedSize size n k tail (List.replicate len false) = none := by
  have h1 : List.replicate len false ≠ [] := by
    intro h
    have := congrArg List.length h
    simp at this
    omega
  have h2 : ones (List.replicate len false) = 0 := by simp [ones, List.count_replicate]
  rw [decodedSize, if_neg h1, if_pos h2]
  rfl

/-- **C42 is violated** for input shorter than the tail: the size of the message is enormous instead of an error. -/
theorem C42_short_violated (c : Code) (hk : c.Ok) (ht : c.tail = true) :
    ∃ d, decodedSize 0 c.n c.k c.tail [] = some (some d) ∧ 2 ^ 32 - 16 < d := by
  have hk3 := hk.k3
  have hk16 := hk.k16
  refine ⟨2 ^ 32 - (c.k - 1), ?_, by omega⟩
  rw [decodedSize, if_pos rfl]
  simp only [Option.bind_eq_bind, Option.bind_some, Nat.zero_mod, ne_eq, not_true_eq_false, if_false, Nat.zero_div, ht,
    if_true, u32]
  congr 2
  omega

/-- **C42, bytes**: for a message of whole bytes, the number of bits found from the number of bytes of its encoding is
the size of the encoding (without puncturing). -/
theorem C42_encoded_bits (c : Code) (hk : c.Ok) (nbytes : Nat) (hL : rawSize c (8 * nbytes) + 8 < 2 ^ 32) :
    encodedBits ((encodedSize (8 * nbytes) c.n c.k c.tail [] + 7) / 8) c.n c.k c.tail =
      some (encodedSize (8 * nbytes) c.n c.k c.tail []) := by
  have hn : 0 < c.n := hk.polys1
  rw [encodedSize_raw c [] _ (by omega), if_pos rfl, encodedBits]
  have hts : (if c.tail = true then c.n * (c.k - 1) else 0) = c.n * c.tailBits := by
    rw [Code.tailBits]
    cases c.tail <;> simp
  have hraw : rawSize c (8 * nbytes) = c.n * (8 * nbytes) + c.n * c.tailBits := by rw [rawSize, Nat.mul_add]
  simp only [hts]
  have hu : u32 ((rawSize c (8 * nbytes) + 7) / 8 * 8) = (rawSize c (8 * nbytes) + 7) / 8 * 8 := by
    rw [u32, Nat.mod_eq_of_lt (by omega)]
  rw [hu, if_neg (by omega)]
  have hns : ((rawSize c (8 * nbytes) + 7) / 8 * 8 - c.n * c.tailBits) / c.n -
      ((rawSize c (8 * nbytes) + 7) / 8 * 8 - c.n * c.tailBits) / c.n % 8 = 8 * nbytes := by
    obtain ⟨e, he, he7⟩ : ∃ e, (rawSize c (8 * nbytes) + 7) / 8 * 8 - c.n * c.tailBits = c.n * (8 * nbytes) + e ∧ e ≤ 7 :=
      ⟨(rawSize c (8 * nbytes) + 7) / 8 * 8 - rawSize c (8 * nbytes), by omega, by omega⟩
    rw [he, Nat.mul_add_div hn]
    have hg : e / c.n ≤ 7 := Nat.le_trans (Nat.div_le_self _ _) he7
    generalize e / c.n = g at hg
    clear he hu hraw hts hL
    omega
  rw [hns, encodedSize_raw c [] _ (by omega), if_pos rfl]

/-- The sizes for a byte with and without puncturing. -/
example : encodedSize 8 2 3 true [true, true, true, false] = 15 := by decide
example : decodedSize 15 2 3 true [true, true, true, false] = some (some 8) := by decide +kernel
example : GoodPattern 2 [true, true, true, false] := by
  refine ⟨by decide, ?_⟩
  intro s hs
  have : s = 0 ∨ s = 1 := by simp at hs; omega
  rcases this with rfl | rfl
  · exact ⟨0, by decide, by decide, by decide⟩
  · exact ⟨2, by decide, by decide, by decide⟩

end Gensio.Convcode
