import Verif.Props.ConvFeed

/-!
# Convolutional coding from bytes to bytes (C44)
-/

namespace Gensio.Convcode

/-- Received bits as input with no uncertainty. -/
def plain (bs : List Bool) : List (Nat × Nat) := bs.map fun b => (b.toNat, 0)

theorem symOf_cons (b : Bool) (s : List Bool) : (symOf (b :: s)).bits = b.toNat ||| ((symOf s).bits <<< 1) := by
  show 2 * (symOf s).bits + b.toNat = _
  have hb : b.toNat < 2 := by cases b <;> decide
  have := shl1_or (symOf s).bits b.toNat hb
  rw [Nat.or_comm, this]

theorem xl_plain (s : List Bool) : ∀ (opos v : Nat) (rest : List (Nat × Nat)) (pp : Nat),
    xl none [] s.length opos v [] (plain s ++ rest) pp =
      some (opos + s.length, v ||| ((symOf s).bits <<< opos), [], rest, pp) := by
  induction s with
  | nil => intro opos v rest pp; simp [xl, plain, symOf]
  | cons b s ih =>
    intro opos v rest pp
    have : plain (b :: s) ++ rest = (b.toNat, 0) :: (plain s ++ rest) := rfl
    have step : xl none [] (s.length + 1) opos v [] ((b.toNat, 0) :: (plain s ++ rest)) pp =
        xl none [] s.length (opos + 1) (v ||| (b.toNat <<< opos)) [] (plain s ++ rest) pp := rfl
    rw [this, List.length_cons, step, ih, symOf_cons, Nat.shiftLeft_or_distrib, ← Nat.shiftLeft_add, Nat.or_assoc, Nat.add_comm 1 opos]
    simp only [Option.some.injEq, Prod.mk.injEq, and_true]
    omega

theorem xs_sym (c : Code) (hn : 0 < c.n) (s : List Bool) (hs : s.length = c.n) (rest : List (Nat × Nat)) (pp : Nat) :
    xs c none [] (plain s ++ rest) ⟨0, 0, [], pp⟩ = some (⟨0, 0, [], pp⟩, rest, some (symOf s)) := by
  have := xl_plain s 0 0 rest pp
  rw [hs] at this
  rw [xs, if_pos hn]
  simp only [Nat.sub_zero]
  rw [this]
  simp [symOf]

theorem dl_syms (c : Code) (hn : 0 < c.n) (cw : List (List Bool)) : SymsOk c.n cw → ∀ (fuel pp : Nat) (acc : List Sym),
    cw.length < fuel →
    dl c none [] fuel (plain cw.flatten) ⟨0, 0, [], pp⟩ acc = some (⟨0, 0, [], pp⟩, acc ++ cw.map symOf) := by
  induction cw with
  | nil =>
    intro _ fuel pp acc hf
    obtain ⟨g, rfl⟩ : ∃ g, fuel = g + 1 := ⟨fuel - 1, by simp at hf; omega⟩
    obtain ⟨m, hm⟩ : ∃ m, c.n = m + 1 := ⟨c.n - 1, by omega⟩
    rw [dl, xs, if_pos hn, hm]
    simp [plain, xl, keptAt]
  | cons s cw ih =>
    intro hs fuel pp acc hf
    obtain ⟨g, rfl⟩ : ∃ g, fuel = g + 1 := ⟨fuel - 1, by simp at hf; omega⟩
    have e : plain (s :: cw).flatten = plain s ++ plain cw.flatten := by simp [plain]
    rw [dl, e, xs_sym c hn s (hs s (by simp))]
    simp only
    rw [ih (fun x hx => hs x (by simp [hx])) g pp _ (by simp at hf; omega)]
    simp

/-- The bytes given to the output function, as a receiver gets them. -/
def rxBytes (sent : List (Nat × Nat)) : List UInt8 := sent.map fun x => UInt8.ofNat x.1

theorem getBit_byteBits (bytes : List UInt8) : ∀ i, i < 8 * bytes.length →
    getBit bytes i = ((byteBits bytes)[i]?).map Bool.toNat := by
  induction bytes with
  | nil => intro i hi; simp at hi
  | cons b bytes ih =>
    intro i hi
    have hbb : byteBits (b :: bytes) = bitsOf 8 b.toNat ++ byteBits bytes := rfl
    rw [hbb]
    by_cases h8 : i < 8
    · rw [List.getElem?_append_left (by rw [bitsOf_length]; exact h8), getBit, Nat.div_eq_of_lt h8, Nat.mod_eq_of_lt h8]
      simp only [List.getElem?_cons_zero, Option.map_some, bit0, bitsOf, List.getElem?_map, List.getElem?_range h8,
        Nat.testBit_shiftRight, Nat.add_zero]
    · rw [List.getElem?_append_right (by rw [bitsOf_length]; omega), bitsOf_length,
        ← ih (i - 8) (by simp at hi; omega), getBit, getBit]
      rw [show i / 8 = (i - 8) / 8 + 1 by omega, List.getElem?_cons_succ, show i % 8 = (i - 8) % 8 by omega]

theorem byteBits_length (bs : List UInt8) : (byteBits bs).length = 8 * bs.length := by
  induction bs with
  | nil => rfl
  | cons b bs ih =>
    have : byteBits (b :: bs) = bitsOf 8 b.toNat ++ byteBits bs := rfl
    rw [this, List.length_append, bitsOf_length, ih, List.length_cons]; omega

theorem inList_plain (bytes : List UInt8) (size : Nat) (h : size ≤ 8 * bytes.length) :
    inList bytes [] size = plain ((byteBits bytes).take size) := by
  apply List.ext_getElem?
  intro i
  by_cases hi : i < size
  · have hl : i < (byteBits bytes).length := by rw [byteBits_length]; omega
    simp only [inList, plain, List.getElem?_map, List.getElem?_range hi, Option.map_some, List.getElem?_take, if_pos hi]
    rw [getBit_byteBits bytes i (by omega), List.getElem?_eq_getElem hl]
    rfl
  · rw [List.getElem?_eq_none (by simp [inList]; omega), List.getElem?_eq_none (by simp [plain]; omega)]

theorem sentBits_rx (sent : List (Nat × Nat)) : (∀ x ∈ sent, x.2 ≤ 8 ∧ x.1 < 256) → (∀ x ∈ sent.dropLast, x.2 = 8) →
    (sentBits sent).length ≤ 8 * sent.length ∧
      (byteBits (rxBytes sent)).take (sentBits sent).length = sentBits sent := by
  induction sent with
  | nil => intro _ _; exact ⟨by simp [sentBits], rfl⟩
  | cons x sent ih =>
    intro h1 h2
    have e1 : sentBits (x :: sent) = bitsOf x.2 x.1 ++ sentBits sent := rfl
    have e2 : byteBits (rxBytes (x :: sent)) = bitsOf 8 x.1 ++ byteBits (rxBytes sent) := by
      have : (UInt8.ofNat x.1).toNat = x.1 := by
        have := (h1 x (by simp)).2
        simp only [UInt8.toNat_ofNat']
        omega
      show bitsOf 8 (UInt8.ofNat x.1).toNat ++ _ = _
      rw [this]; rfl
    cases sent with
    | nil =>
      have hx := (h1 x (by simp)).1
      rw [e1, e2]
      simp only [sentBits, List.flatMap_nil, List.append_nil, bitsOf_length]
      refine ⟨by simpa using hx, ?_⟩
      rw [show byteBits (rxBytes []) = [] from rfl, List.append_nil]
      conv => lhs; rw [show 8 = x.2 + (8 - x.2) by omega, bitsOf_add]
      rw [List.take_append_of_le_length (by rw [bitsOf_length]; omega), List.take_of_length_le (by rw [bitsOf_length]; omega)]
    | cons y sent =>
      have hx : x.2 = 8 := h2 x (by simp)
      obtain ⟨i1, i2⟩ := ih (fun z hz => h1 z (by simp [hz])) (fun z hz => h2 z (by
        rw [List.dropLast_cons_of_ne_nil (by simp)]; exact List.mem_cons_of_mem _ hz))
      rw [e1, e2, hx, List.length_append, bitsOf_length]
      refine ⟨by rw [List.length_cons]; omega, ?_⟩
      rw [List.take_append, List.take_of_length_le (by rw [bitsOf_length]; omega), bitsOf_length,
        Nat.add_sub_cancel_left, i2]

/-- The receiver's end: all of the bits at once, and `convdecode_finish`. -/
def receive (c : Code) (tsize fuel : Nat) (rx : List UInt8) (size : Nat) : Option (List Nat × Nat) :=
  (decodeData c none [] tsize fuel rx [] size ⟨In.init, Dec.init⟩).bind fun f => finish c none [] tsize fuel f

theorem foldl_out (bits : List Bool) : ∀ o : Out, o.Ok →
    ((bits.map Bool.toNat).foldl (fun o b => outputBits o b 1) o).Ok ∧
      ((bits.map Bool.toNat).foldl (fun o b => outputBits o b 1) o).stream = o.stream ++ bits := by
  induction bits with
  | nil => intro o ho; exact ⟨ho, by simp⟩
  | cons b bits ih =>
    intro o ho
    have hb : b.toNat < 2 ^ 1 := by cases b <;> decide
    obtain ⟨o1, o2, _⟩ := outputBits_spec o ho b.toNat 1 hb
    obtain ⟨i1, i2⟩ := ih _ o1
    refine ⟨i1, ?_⟩
    rw [List.map_cons, List.foldl_cons, i2, o2]
    have : bitsOf 1 b.toNat = [b] := by cases b <;> rfl
    rw [this]; simp

theorem bitsOf_inj (n : Nat) : ∀ a b, a < 2 ^ n → b < 2 ^ n → bitsOf n a = bitsOf n b → a = b := by
  intro a b ha hb h
  apply Nat.eq_of_testBit_eq
  intro j
  by_cases hj : j < n
  · have := congrArg (fun l => l[j]?) h
    simpa [bitsOf, hj] using this
  · rw [testBit_big a n j ha (by omega), testBit_big b n j hb (by omega)]

/-- Sequences of whole bytes are determined by their bits. -/
theorem sentBits_bytes (bytes : List UInt8) : ∀ (sent : List (Nat × Nat)), (∀ x ∈ sent, x.2 = 8 ∧ x.1 < 256) →
    sentBits sent = byteBits bytes → sent = bytes.map fun b => (b.toNat, 8) := by
  induction bytes with
  | nil =>
    intro sent hs h
    cases sent with
    | nil => rfl
    | cons x sent =>
      have := congrArg List.length h
      have hx := (hs x (by simp)).1
      simp [sentBits, byteBits, bitsOf_length, hx] at this
  | cons b bytes ih =>
    intro sent hs h
    cases sent with
    | nil =>
      have := congrArg List.length h
      rw [byteBits_length] at this
      simp [sentBits] at this
    | cons x sent =>
      obtain ⟨x1, x2⟩ := x
      have hx := hs (x1, x2) (by simp)
      simp only at hx
      obtain ⟨rfl, hx1⟩ := hx
      have h' : bitsOf 8 x1 ++ sentBits sent = bitsOf 8 b.toNat ++ byteBits bytes := h
      obtain ⟨h1, h2⟩ := List.append_inj h' (by rw [bitsOf_length, bitsOf_length])
      rw [bitsOf_inj 8 _ _ hx1 b.toNat_lt h1, ih sent (fun y hy => hs y (by simp [hy])) h2]
      rfl

theorem decOut_bytes (bytes : List UInt8) :
    decOut ((byteBits bytes).map Bool.toNat) = bytes.map fun b => (b.toNat, 8) := by
  obtain ⟨h1, h2⟩ := foldl_out (byteBits bytes) ⟨0, 0, 0, []⟩
    ⟨by decide, by decide, by intro x hx; simp at hx⟩
  rw [decOut]
  generalize ((byteBits bytes).map Bool.toNat).foldl (fun o b => outputBits o b 1) ⟨0, 0, 0, []⟩ = o at h1 h2 ⊢
  have hlen : ∀ l : List (Nat × Nat), (∀ x ∈ l, x.2 = 8 ∧ x.1 < 256) → (sentBits l).length = 8 * l.length := by
    intro l
    induction l with
    | nil => intro _; rfl
    | cons x l ih =>
      intro hl
      have e : sentBits (x :: l) = bitsOf x.2 x.1 ++ sentBits l := rfl
      rw [e, List.length_append, bitsOf_length, (hl x (by simp)).1, ih fun y hy => hl y (by simp [hy])]
      simp; omega
  have hpos : o.pos = 0 := by
    have := congrArg List.length h2
    rw [Out.stream, List.length_append, hlen _ h1.sent, bitsOf_length, List.length_append, byteBits_length] at this
    have hp := h1.pos
    simp [Out.stream, sentBits, bitsOf] at this
    omega
  rw [if_neg (by omega)]
  apply sentBits_bytes bytes o.sent h1.sent
  have : o.stream = sentBits o.sent := by rw [Out.stream, hpos]; simp [bitsOf]
  rw [← this, h2]
  simp [Out.stream, sentBits, bitsOf]

/-- **C44, bytes to bytes**: for every code whose symbols tell the input bit and every message of bytes, encoding the
message with `convencode_data` and `convencode_finish`, feeding the emitted bytes to `convdecode_data` and calling
`convdecode_finish` gives the bytes of the message back, with no errors counted. -/
theorem C44_bytes (c : Code) (h : c.Ok) (hf : c.Fb) (hs : c.Sees) (bytes : List UInt8) (tsize fuel : Nat)
    (ht : 8 * bytes.length + c.tailBits ≤ tsize) (hfuel : 8 * bytes.length + c.tailBits ≤ fuel)
    (hlen : 8 * (8 * bytes.length + c.tailBits) < 2 ^ 30 - 1) :
    ∃ sent total bits,
      ((encodeData c [] bytes (8 * bytes.length) Enc.init).bind fun e => encodeFinish c [] e) = some (sent, total) ∧
      receive c tsize fuel (rxBytes sent) (total % 2 ^ 32) = some (bits, 0) ∧
      decOut bits = bytes.map fun b => (b.toNat, 8) := by
  have hn : 0 < c.n := h.polys1
  obtain ⟨sent, total, e1, e2, e3, e4, e5⟩ := C63_encoder c h [] bytes (8 * bytes.length) (Nat.le_refl _)
  have htake : (byteBits bytes).take (8 * bytes.length) = byteBits bytes :=
    List.take_of_length_le (by rw [byteBits_length]; exact Nat.le_refl _)
  rw [puncture_nil, htake] at e2
  obtain ⟨s1, s2⟩ := sentBits_rx sent e3 e4
  have hsl : (sentBits sent).length = c.n * (8 * bytes.length + c.tailBits) := by
    rw [e2]
    show (cwBits c [] _).length = _
    rw [cwBits_length, List.length_append, byteBits_length, List.length_replicate]
  have htot : total % 2 ^ 32 = (sentBits sent).length := by
    rw [e5, Nat.mod_eq_of_lt]
    rw [hsl]
    have := Nat.mul_le_mul_right (8 * bytes.length + c.tailBits) h.polys8
    have hc : c.n = c.polys.length := rfl
    rw [← hc] at this
    omega
  have hin : InOk none (rxBytes sent) [] (sentBits sent).length :=
    ⟨by simpa [rxBytes] using s1, fun hh => absurd rfl hh⟩
  have hl : inList (rxBytes sent) [] (sentBits sent).length =
      plain (codeword c (byteBits bytes ++ List.replicate c.tailBits false)).flatten := by
    rw [inList_plain _ _ hin.1, s2, e2]
  obtain ⟨d, d1, d2⟩ := C44_roundtrip c h hf hs (byteBits bytes) tsize fuel In.init
    (by rw [byteBits_length]; exact ht) (by rw [byteBits_length]; exact hlen)
  refine ⟨sent, total, (byteBits bytes).map Bool.toNat, e1, ?_, decOut_bytes bytes⟩
  rw [receive, htot, decodeData, symsOf_dl c hn none [] fuel _ _ _ hin, hl]
  have hd := dl_syms c hn (codeword c (byteBits bytes ++ List.replicate c.tailBits false)) (codewordFrom_syms _ _ _)
    (fuel + 1) 0 [] (by
      rw [codeword, codewordFrom_length, List.length_append, byteBits_length, List.length_replicate]
      omega)
  show (((dl c none [] (fuel + 1) _ In.init []).bind _).bind _) = _
  rw [show In.init = (⟨0, 0, [], 0⟩ : In) from rfl, hd]
  simp only [List.nil_append, Option.bind_some, Option.bind_eq_bind]
  rw [d1]
  exact d2

/-- **C44 is violated with puncturing and hard decisions**: bits left out are counted as received zeros, so an
uncorrupted message (9, four bits) is decoded wrongly, though with a correct treatment of the missing bits it
is decoded correctly (soft decisions), and then with a number of errors different from zero. -/
theorem C44_punctured_violated :
    ∃ (p : List Bool) (sent : List (Nat × Nat)) (total : Nat),
      ((encodeData code75 p [9] 4 Enc.init).bind fun e => encodeFinish code75 p e) = some (sent, total) ∧
      ((decodeData code75 none p 50 50 (rxBytes sent) [] total ⟨In.init, Dec.init⟩).bind fun f =>
        finish code75 none p 50 50 f) = some ([0, 0, 1, 1], 2) ∧
      ((decodeData code75 (some 100) p 50 50 (rxBytes sent) (List.replicate total 0) total ⟨In.init, Dec.init⟩).bind
        fun f => finish code75 (some 100) p 50 50 f) = some ([1, 0, 0, 1], 150) := by
  refine ⟨[true, true, false, true], _, _, rfl, ?_, ?_⟩ <;> decide +kernel

example : receive code75 50 50 [0x37, 0, 0] 20 = some ([1, 0, 0, 0, 0, 0, 0, 0], 0) := by decide +kernel
example : decOut [1, 0, 0, 0, 0, 0, 0, 0] = [(1, 8)] := by decide +kernel

end Gensio.Convcode
