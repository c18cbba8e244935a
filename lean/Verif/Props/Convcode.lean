import Verif.Lemmas.Viterbi

/-!
# Convolutional codes: what is encoded, and what the decoder finds (C43, C44)

The code is described here on its own, as a shift register with taps, and not through the tables of the program.
-/

namespace Gensio.Convcode

/-! ### Specification -/

/-- The sum modulo 2 of the register bits `h` (newest first) selected by a polynomial of `k` bits whose highest bit
belongs to the newest register bit. -/
def taps (k poly : Nat) (h : List Bool) : Bool :=
  ((List.range k).countP fun m => poly.testBit (k - 1 - m) && h.getD m false) % 2 == 1

/-- The bit shifted into the register `h` for the input `x`: the input, or the feedback for recursive codes. -/
def regBit (c : Code) (x : Bool) (h : List Bool) : Bool :=
  if c.recursive then taps c.k (c.polys.getD 0 0) (x :: h) else x

/-- Output bit `j` for the input `x` with register `h`; the first output of a recursive code is the input. -/
def outBit (c : Code) (x : Bool) (h : List Bool) (j : Nat) : Bool :=
  if c.recursive = true ∧ j = 0 then x else taps c.k (c.polys.getD j 0) (regBit c x h :: h)

/-- The output symbol for one input bit. -/
def outSym (c : Code) (x : Bool) (h : List Bool) : List Bool := (List.range c.n).map (outBit c x h)

/-- The output symbols for the input bits, starting with register `h`. -/
def codewordFrom (c : Code) : List Bool → List Bool → List (List Bool)
  | _, [] => []
  | h, x :: xs => outSym c x h :: codewordFrom c (regBit c x h :: h) xs

/-- The codeword of a bit sequence: the register starts with zeros. -/
def codeword (c : Code) (xs : List Bool) : List (List Bool) := codewordFrom c [] xs

/-- Number of positions with different bits. -/
def diff : List Bool → List Bool → Nat
  | a :: as, b :: bs => (if a = b then 0 else 1) + diff as bs
  | _, _ => 0

/-- Hamming distance of two sequences of symbols. -/
def hdist : List (List Bool) → List (List Bool) → Nat
  | a :: as, b :: bs => diff a b + hdist as bs
  | _, _ => 0

/-- Soft distance of a symbol to a received symbol with uncertainties `us` (from 0 to `u100`): the uncertainty for a
bit as received, and the rest for a bit different from the received one. -/
def sdiff (u100 : Nat) : List Bool → List Bool → List Nat → Nat
  | a :: as, b :: bs, u :: us => (if a = b then u else u100 - u) + sdiff u100 as bs us
  | _, _, _ => 0

/-- Soft distance of two sequences of symbols. -/
def sdist (u100 : Nat) : List (List Bool) → List (List Bool) → List (List Nat) → Nat
  | a :: as, b :: bs, u :: us => sdiff u100 a b u + sdist u100 as bs us
  | _, _, _ => 0

/-- The low `n` bits of a number, lowest first. -/
def bitsOf (n v : Nat) : List Bool := (List.range n).map v.testBit

/-- Bits as booleans and back. -/
def toB (b : Nat) : Bool := b == 1

/-! ### The tables implement the shift register -/

theorem bitsOf_succ (n v : Nat) : bitsOf (n + 1) v = v.testBit 0 :: bitsOf n (v >>> 1) := by
  rw [bitsOf, bitsOf, List.range_succ_eq_map, List.map_cons, List.map_map]
  congr 1
  apply List.map_congr_left
  intro j _
  simp only [Function.comp, Nat.succ_eq_add_one, Nat.testBit_succ, shr1]

theorem bit0 (a : Nat) : a &&& 1 = (a.testBit 0).toNat := by
  rw [Nat.and_one_is_mod, Nat.testBit_zero]
  have : a % 2 = 0 ∨ a % 2 = 1 := by omega
  rcases this with h | h <;> simp [h]

theorem diff_bitsOf (n : Nat) : ∀ a b, diff (bitsOf n a) (bitsOf n b) = popLoop n (a ^^^ b) := by
  induction n with
  | zero => intro a b; rfl
  | succ n ih =>
    intro a b
    rw [bitsOf_succ, bitsOf_succ, diff, ih, popLoop, Nat.shiftRight_xor_distrib, bit0, Nat.testBit_xor]
    congr 1
    cases a.testBit 0 <;> cases b.testBit 0 <;> rfl

theorem hamming_hard (c : Code) (hc : c.n ≤ 8) (v : Nat) (s : Sym) (hv : v < 2 ^ c.n) (hs : s.bits < 2 ^ c.n) :
    hamming c none v s = some (diff (bitsOf c.n v) (bitsOf c.n s.bits)) := by
  rw [hamming, diff_bitsOf, popLoop_eq, popcount_lt _ c.n (by omega) (Nat.xor_lt_two_pow hv hs)]

theorem softLoop_eq (u100 : Nat) (n : Nat) : ∀ (v1 v2 : Nat) (us : List Nat) (rv : Nat), n ≤ us.length →
    (∀ u ∈ us, u ≤ u100) → rv < 2 ^ 32 →
    softLoop u100 n v1 v2 us rv = some (u32 (rv + sdiff u100 (bitsOf n v1) (bitsOf n v2) us)) := by
  induction n with
  | zero =>
    intro v1 v2 us rv _ _ hrv
    simp [softLoop, bitsOf, sdiff, u32, Nat.mod_eq_of_lt hrv]
  | succ n ih =>
    intro v1 v2 us rv hl hu hrv
    cases us with
    | nil => simp at hl
    | cons u us =>
      have hu0 := hu u (by simp)
      rw [softLoop]
      simp only [List.head?_cons, List.tail_cons, Option.bind_eq_bind, Option.bind_some]
      rw [ih _ _ us _ (by simpa using hl) (fun x hx => hu x (by simp [hx])) (by split <;> exact Nat.mod_lt _ (by decide)),
        bitsOf_succ, bitsOf_succ, sdiff, bit0, bit0]
      have e : ((v1.testBit 0).toNat = (v2.testBit 0).toNat) ↔ v1.testBit 0 = v2.testBit 0 := by
        cases v1.testBit 0 <;> cases v2.testBit 0 <;> simp
      congr 1
      by_cases hb : v1.testBit 0 = v2.testBit 0
      · rw [if_pos (e.2 hb), if_pos hb]
        simp only [u32]; omega
      · rw [if_neg fun x => hb (e.1 x), if_neg hb]
        simp only [u32]; omega

theorem sdiff_le (u100 : Nat) (a : List Bool) : ∀ (b : List Bool) (us : List Nat), (∀ u ∈ us, u ≤ u100) →
    sdiff u100 a b us ≤ u100 * a.length := by
  induction a with
  | nil => intro b us _; simp [sdiff]
  | cons x a ih =>
    intro b us hu
    cases b with
    | nil => simp [sdiff]
    | cons y b =>
      cases us with
      | nil => simp [sdiff]
      | cons u us =>
        have h1 := ih b us fun z hz => hu z (by simp [hz])
        have h2 := hu u (by simp)
        rw [sdiff, List.length_cons, Nat.mul_add]
        split <;> omega

theorem diff_le (a : List Bool) : ∀ b, diff a b ≤ a.length := by
  induction a with
  | nil => intro b; simp [diff]
  | cons x a ih =>
    intro b
    cases b with
    | nil => simp [diff]
    | cons y b =>
      have := ih b
      rw [diff, List.length_cons]
      split <;> omega

theorem bitsOf_length (n v : Nat) : (bitsOf n v).length = n := by simp [bitsOf]

theorem hamming_soft (c : Code) (hc : c.n ≤ 8) (u100 : Nat) (hu : u100 < 256) (v : Nat) (s : Sym)
    (hl : c.n ≤ s.unc.length) (hs : ∀ u ∈ s.unc, u ≤ u100) :
    hamming c (some u100) v s = some (sdiff u100 (bitsOf c.n v) (bitsOf c.n s.bits) s.unc) := by
  rw [hamming, softLoop_eq u100 c.n v s.bits s.unc 0 hl hs (by decide), Nat.zero_add, u32, Nat.mod_eq_of_lt]
  have := sdiff_le u100 (bitsOf c.n v) (bitsOf c.n s.bits) s.unc hs
  rw [bitsOf_length] at this
  have : u100 * c.n ≤ 255 * 8 := Nat.mul_le_mul (by omega) hc
  omega

/-- A state of the program holds the newest register bits. -/
structure Rel (c : Code) (i : Nat) (h : List Bool) : Prop where
  lt : i < c.states
  bits : ∀ m, m < c.k - 1 → i.testBit m = h.getD m false

theorem rel_init (c : Code) : Rel c 0 [] := ⟨states_pos c, fun m _ => by simp⟩

theorem taps_eq (c : Code) (hk : c.Ok) (i b : Nat) (h : List Bool) (hr : Rel c i h) (hb : b < 2) (j : Nat) :
    decide (odd ((2 * i + b) &&& c.rpoly j) = 1) = taps c.k (c.polys.getD j 0) (toB b :: h) := by
  have hk16 := hk.k16
  have hk3 := hk.k3
  rw [odd_and, taps, countP_range_le _ c.k 32 (by omega)]
  · have : (List.range c.k).countP (fun m => (2 * i + b).testBit m && (c.rpoly j).testBit m) =
        (List.range c.k).countP fun m => (c.polys.getD j 0).testBit (c.k - 1 - m) && (toB b :: h).getD m false := by
      apply List.countP_congr
      intro m hm
      have hm := List.mem_range.1 hm
      rw [rpoly_getD, reverseBits_testBit]
      simp only [hm, decide_true, Bool.true_and]
      cases m with
      | zero => rw [shl1_add_testBit_zero _ _ hb, Bool.and_comm]; exact Iff.rfl
      | succ m =>
        rw [shl1_add_testBit_succ _ _ _ hb, hr.bits m (by omega), Bool.and_comm]; exact Iff.rfl
    rw [this]
    generalize (List.range c.k).countP _ = x
    have : x % 2 = 0 ∨ x % 2 = 1 := by omega
    rcases this with h | h <;> simp [h]
  · intro m h1 h2
    rw [rpoly_getD, reverseBits_testBit]
    simp [show ¬ m < c.k by omega]

theorem nbit_eq (c : Code) (hk : c.Ok) (i b : Nat) (h : List Bool) (hr : Rel c i h) (hb : b < 2) :
    toB (c.nbit b i) = regBit c (toB b) h := by
  rw [Code.nbit, regBit]
  by_cases hrec : c.recursive = true
  · rw [if_pos hrec, if_pos hrec, Code.rbit, shl1_or _ _ hb, ← taps_eq c hk i b h hr hb 0, toB]
    rfl
  · rw [if_neg hrec, if_neg hrec]

theorem convert_eq (c : Code) (hk : c.Ok) (i b : Nat) (h : List Bool) (hr : Rel c i h) (hb : b < 2) :
    bitsOf c.n (c.convert b i) = outSym c (toB b) h := by
  rw [bitsOf, outSym]
  apply List.map_congr_left
  intro j hj
  have hj := List.mem_range.1 hj
  rw [convert_testBit c b i j hb hk.polys1, outBit]
  simp only [hj, decide_true, Bool.true_and]
  split
  · rfl
  · rw [taps_eq c hk i _ h hr (nbit_lt c b i hb), nbit_eq c hk i b h hr hb]

theorem rel_next (c : Code) (hk : c.Ok) (i b : Nat) (h : List Bool) (hr : Rel c i h) (hb : b < 2) :
    Rel c (c.next b i) (regBit c (toB b) h :: h) := by
  refine ⟨next_lt c b i hb, ?_⟩
  intro m hm
  have hn := nbit_lt c b i hb
  rw [next_eq c b i hb, states_eq, Nat.testBit_mod_two_pow]
  simp only [hm, decide_true, Bool.true_and]
  cases m with
  | zero => rw [shl1_add_testBit_zero _ _ hn, ← nbit_eq c hk i b h hr hb]; rfl
  | succ m => rw [shl1_add_testBit_succ _ _ _ hn, hr.bits m (by omega)]; rfl

/-- The symbols received, as bits. -/
def symBits (c : Code) (ys : List Sym) : List (List Bool) := ys.map fun y => bitsOf c.n y.bits

/-- The branch metric for hard decisions. -/
def costH (c : Code) (y : Sym) (b p : Nat) : Nat := diff (bitsOf c.n (c.convert b p)) (bitsOf c.n y.bits)

/-- The branch metric for soft decisions. -/
def costS (c : Code) (u100 : Nat) (y : Sym) (b p : Nat) : Nat :=
  sdiff u100 (bitsOf c.n (c.convert b p)) (bitsOf c.n y.bits) y.unc

theorem pcostH (c : Code) (hk : c.Ok) (bs : List Nat) (hb : IsBits bs) : ∀ (ys : List Sym) (i : Nat) (h : List Bool),
    Rel c i h → pcost c (costH c) i bs ys = hdist (codewordFrom c h (bs.map toB)) (symBits c ys) := by
  induction bs with
  | nil => intro ys i h _; cases ys <;> rfl
  | cons b bs ih =>
    intro ys i h hr
    cases ys with
    | nil => rfl
    | cons y ys =>
      have hb0 := hb.cons.1
      simp only [pcost, List.map_cons, codewordFrom, symBits, hdist, costH]
      rw [ih hb.cons.2 ys _ _ (rel_next c hk i b h hr hb0), convert_eq c hk i b h hr hb0]
      rfl

theorem pcostS (c : Code) (hk : c.Ok) (u100 : Nat) (bs : List Nat) (hb : IsBits bs) :
    ∀ (ys : List Sym) (i : Nat) (h : List Bool), Rel c i h →
      pcost c (costS c u100) i bs ys =
        sdist u100 (codewordFrom c h (bs.map toB)) (symBits c ys) (ys.map fun y => y.unc) := by
  induction bs with
  | nil => intro ys i h _; cases ys <;> rfl
  | cons b bs ih =>
    intro ys i h hr
    cases ys with
    | nil => rfl
    | cons y ys =>
      have hb0 := hb.cons.1
      simp only [pcost, List.map_cons, codewordFrom, symBits, sdist, costS]
      rw [ih hb.cons.2 ys _ _ (rel_next c hk i b h hr hb0), convert_eq c hk i b h hr hb0]
      rfl

theorem toNat_bits (xs : List Bool) : IsBits (xs.map Bool.toNat) ∧ (xs.map Bool.toNat).map toB = xs := by
  constructor
  · intro b hb
    obtain ⟨x, _, rfl⟩ := List.mem_map.1 hb
    cases x <;> decide
  · rw [List.map_map]
    conv => rhs; rw [← List.map_id xs]
    apply List.map_congr_left
    intro x _
    cases x <;> rfl

theorem finish_eq (c : Code) (soft : Soft) (tsize fuel : Nat) (inp : In) (d : Dec) (bs : List Nat) (m : Nat)
    (hl : c.tailBits ≤ d.cols.length) (hp : decodePath c d = some (bs, m)) :
    finish c soft [] tsize fuel ⟨inp, d⟩ = some (bs.take (d.cols.length - c.tailBits), m) := by
  rw [finish, if_neg (by simp only; omega), if_pos rfl, decodeFinish, if_neg (by simp only; omega)]
  rw [decodePath] at hp
  simp only [Option.bind_eq_bind] at hp ⊢
  cases hb : backLoop c.states d.cols (minLoop d.prev (c.states - 1) 1 0 (d.prev 0)).1 [] with
  | none => rw [hb] at hp; simp at hp
  | some b =>
    rw [hb] at hp
    simp only [Option.bind_some, Option.some.injEq, Prod.mk.injEq] at hp ⊢
    rw [hp.1]
    exact ⟨rfl, hp.2⟩

/-! ### C43 -/

/-- **C43, hard decisions (what holds)**: for every code accepted by `setup_convcode1` (recursive ones with feedback of
the input bit) and every sequence of received symbols, the decoder finds an input sequence whose codeword has the
smallest Hamming distance to the received symbols among all input sequences, reports this distance, and outputs the
sequence without its last `tail_bits` bits.  With `do_tail` off this is the whole of C43.  Missing with a tail: the
decoder does not use that the tail is zero (`C43_tail_violated`). -/
theorem C43_hard_partial (c : Code) (h : c.Ok) (hf : c.Fb) (ys : List Sym) (tsize fuel : Nat) (inp : In)
    (hy : ∀ y ∈ ys, y.bits < 2 ^ c.n) (ht : ys.length ≤ tsize) (hlen : 8 * ys.length < 2 ^ 30 - 1)
    (htail : c.tailBits ≤ ys.length) :
    ∃ d xs, decodeSyms c none tsize ys Dec.init = some d ∧ xs.length = ys.length ∧
      finish c none [] tsize fuel ⟨inp, d⟩ =
        some ((xs.take (ys.length - c.tailBits)).map Bool.toNat, hdist (codeword c xs) (symBits c ys)) ∧
      ∀ xs' : List Bool, xs'.length = ys.length →
        hdist (codeword c xs) (symBits c ys) ≤ hdist (codeword c xs') (symBits c ys) := by
  have hn : c.n ≤ 8 := h.polys8
  obtain ⟨d, bs, e1, e2, e3, e4, e5, e6⟩ := viterbi c h hf none (costH c) 8 tsize ys ht
    (fun z _ b _ p _ => Nat.le_trans (diff_le _ _) (by rw [bitsOf_length]; exact hn))
    (fun z hz b hb p _ => hamming_hard c hn _ z (convert_lt c b p hb h.polys1) (hy z hz))
    (by simp only [initOther]; omega)
  have hback : (bs.map toB).map Bool.toNat = bs := by
    rw [List.map_map]
    conv => rhs; rw [← List.map_id bs]
    apply List.map_congr_left
    intro x hx
    have := e4 x hx
    have : x = 0 ∨ x = 1 := by omega
    rcases this with rfl | rfl <;> rfl
  have hcost := pcostH c h bs e4 ys 0 [] (rel_init c)
  refine ⟨d, bs.map toB, e1, by simp [e5], ?_, ?_⟩
  · rw [finish_eq c none tsize fuel inp d bs _ (by omega) e3, hcost, e2, List.map_take, hback]
    rfl
  · intro xs' hx'
    obtain ⟨b1, b2⟩ := toNat_bits xs'
    have := e6 _ b1 (by simp [hx'])
    rw [hcost, pcostH c h _ b1 ys 0 [] (rel_init c), b2] at this
    exact this

/-- **C43, soft decisions (what holds)**: as above for the sum of the uncertainties. -/
theorem C43_soft_partial (c : Code) (h : c.Ok) (hf : c.Fb) (u100 : Nat) (hu : u100 < 256) (ys : List Sym)
    (tsize fuel : Nat) (inp : In) (hy : ∀ y ∈ ys, c.n ≤ y.unc.length ∧ ∀ u ∈ y.unc, u ≤ u100)
    (ht : ys.length ≤ tsize) (hlen : u100 * 8 * ys.length < 2 ^ 30 - 1) (htail : c.tailBits ≤ ys.length) :
    ∃ d xs, decodeSyms c (some u100) tsize ys Dec.init = some d ∧ xs.length = ys.length ∧
      finish c (some u100) [] tsize fuel ⟨inp, d⟩ =
        some ((xs.take (ys.length - c.tailBits)).map Bool.toNat,
          sdist u100 (codeword c xs) (symBits c ys) (ys.map fun y => y.unc)) ∧
      ∀ xs' : List Bool, xs'.length = ys.length →
        sdist u100 (codeword c xs) (symBits c ys) (ys.map fun y => y.unc) ≤
          sdist u100 (codeword c xs') (symBits c ys) (ys.map fun y => y.unc) := by
  have hn : c.n ≤ 8 := h.polys8
  obtain ⟨d, bs, e1, e2, e3, e4, e5, e6⟩ := viterbi c h hf (some u100) (costS c u100) (u100 * 8) tsize ys ht
    (fun z hz b _ p _ => Nat.le_trans (sdiff_le u100 _ _ _ (hy z hz).2)
      (by rw [bitsOf_length]; exact Nat.mul_le_mul_left _ hn))
    (fun z hz b hb p _ => hamming_soft c hn u100 hu _ z (hy z hz).1 (hy z hz).2)
    (by simp only [initOther]; omega)
  have hback : (bs.map toB).map Bool.toNat = bs := by
    rw [List.map_map]
    conv => rhs; rw [← List.map_id bs]
    apply List.map_congr_left
    intro x hx
    have := e4 x hx
    have : x = 0 ∨ x = 1 := by omega
    rcases this with rfl | rfl <;> rfl
  have hcost := pcostS c h u100 bs e4 ys 0 [] (rel_init c)
  refine ⟨d, bs.map toB, e1, by simp [e5], ?_, ?_⟩
  · rw [finish_eq c (some u100) tsize fuel inp d bs _ (by omega) e3, hcost, e2, List.map_take, hback]
    rfl
  · intro xs' hx'
    obtain ⟨b1, b2⟩ := toNat_bits xs'
    have := e6 _ b1 (by simp [hx'])
    rw [hcost, pcostS c h u100 _ b1 ys 0 [] (rel_init c), b2] at this
    exact this

/-- The usual code with constraint length 3. -/
def code75 : Code := ⟨3, [7, 5], false, true⟩

theorem code75_ok : code75.Ok := ⟨by decide, by decide, by decide, by decide⟩

/-- **C43 is violated with a tail**: for these received symbols the decoder outputs the message 0 although the
codeword of the message 1 with its tail is strictly closer, because paths with a non-zero tail are considered. -/
theorem C43_tail_violated :
    ∃ (ys : List Sym) (d : Dec) (e : Nat), decodeSyms code75 none 100 ys Dec.init = some d ∧
      finish code75 none [] 100 0 ⟨In.init, d⟩ = some ([0], e) ∧
      hdist (codeword code75 ([true] ++ [false, false])) (symBits code75 ys) <
        hdist (codeword code75 ([false] ++ [false, false])) (symBits code75 ys) := by
  have key : ((decodeSyms code75 none 100 [⟨0, []⟩, ⟨1, []⟩, ⟨3, []⟩] Dec.init).bind fun d =>
    finish code75 none [] 100 0 ⟨In.init, d⟩) = some ([0], 1) := by decide +kernel
  cases hd : decodeSyms code75 none 100 [⟨0, []⟩, ⟨1, []⟩, ⟨3, []⟩] Dec.init with
  | none => rw [hd] at key; simp at key
  | some d =>
    rw [hd] at key
    exact ⟨_, d, 1, hd, key, by decide +kernel⟩

/-! ### C44 -/

theorem diff_self (a : List Bool) : diff a a = 0 := by
  induction a with
  | nil => rfl
  | cons x a ih => simp [diff, ih]

theorem hdist_self (a : List (List Bool)) : hdist a a = 0 := by
  induction a with
  | nil => rfl
  | cons x a ih => simp [hdist, ih, diff_self]

theorem diff_eq_zero (a : List Bool) : ∀ b, a.length = b.length → diff a b = 0 → a = b := by
  induction a with
  | nil => intro b hl _; exact (List.length_eq_zero_iff.1 hl.symm).symm
  | cons x a ih =>
    intro b hl h
    cases b with
    | nil => simp at hl
    | cons y b =>
      rw [diff] at h
      by_cases e : x = y
      · rw [e, ih b (by simpa using hl) (by omega)]
      · rw [if_neg e] at h; omega

theorem diff_comm (a : List Bool) : ∀ b, diff a b = diff b a := by
  induction a with
  | nil => intro b; cases b <;> rfl
  | cons x a ih =>
    intro b
    cases b with
    | nil => rfl
    | cons y b =>
      rw [diff, diff, ih b]
      congr 1
      cases x <;> cases y <;> rfl

theorem diff_triangle (a : List Bool) : ∀ b c, a.length = b.length → c.length = b.length →
    diff a c ≤ diff a b + diff b c := by
  induction a with
  | nil => intro b c h1 h2; simp [diff]
  | cons x a ih =>
    intro b c h1 h2
    cases b with
    | nil => simp at h1
    | cons y b =>
      cases c with
      | nil => simp at h2
      | cons z c =>
        have := ih b c (by simpa using h1) (by simpa using h2)
        rw [diff, diff, diff]
        cases x <;> cases y <;> cases z <;> simp <;> omega

/-- Sequences of symbols of `n` bits. -/
def SymsOk (n : Nat) (a : List (List Bool)) : Prop := ∀ s ∈ a, s.length = n

theorem hdist_eq_zero (n : Nat) (a : List (List Bool)) : ∀ b, a.length = b.length → SymsOk n a → SymsOk n b →
    hdist a b = 0 → a = b := by
  induction a with
  | nil => intro b hl _ _ _; exact (List.length_eq_zero_iff.1 hl.symm).symm
  | cons x a ih =>
    intro b hl ha hb h
    cases b with
    | nil => simp at hl
    | cons y b =>
      rw [hdist] at h
      rw [diff_eq_zero x y ((ha x (by simp)).trans (hb y (by simp)).symm) (by omega),
        ih b (by simpa using hl) (fun s hs => ha s (by simp [hs])) (fun s hs => hb s (by simp [hs])) (by omega)]

theorem hdist_comm (a : List (List Bool)) : ∀ b, hdist a b = hdist b a := by
  induction a with
  | nil => intro b; cases b <;> rfl
  | cons x a ih =>
    intro b
    cases b with
    | nil => rfl
    | cons y b => rw [hdist, hdist, ih b, diff_comm]

theorem hdist_triangle (n : Nat) (a : List (List Bool)) : ∀ b c, a.length = b.length → c.length = b.length →
    SymsOk n a → SymsOk n b → SymsOk n c → hdist a c ≤ hdist a b + hdist b c := by
  induction a with
  | nil => intro b c _ _ _ _ _; simp [hdist]
  | cons x a ih =>
    intro b c h1 h2 ha hb hc
    cases b with
    | nil => simp at h1
    | cons y b =>
      cases c with
      | nil => simp at h2
      | cons z c =>
        have t1 := ih b c (by simpa using h1) (by simpa using h2) (fun s hs => ha s (by simp [hs]))
          (fun s hs => hb s (by simp [hs])) (fun s hs => hc s (by simp [hs]))
        have lx := ha x (by simp)
        have ly := hb y (by simp)
        have lz := hc z (by simp)
        have t2 := diff_triangle x y z (by omega) (by omega)
        rw [hdist, hdist, hdist]
        omega

theorem codewordFrom_length (c : Code) (xs : List Bool) : ∀ h, (codewordFrom c h xs).length = xs.length := by
  induction xs with
  | nil => intro h; rfl
  | cons x xs ih => intro h; simp [codewordFrom, ih]

theorem codewordFrom_syms (c : Code) (xs : List Bool) : ∀ h, SymsOk c.n (codewordFrom c h xs) := by
  induction xs with
  | nil => intro h s hs; simp [codewordFrom] at hs
  | cons x xs ih =>
    intro h s hs
    rw [codewordFrom, List.mem_cons] at hs
    rcases hs with hs | hs
    · rw [hs]; simp [outSym]
    · exact ih _ s hs

theorem symBits_syms (c : Code) (ys : List Sym) : SymsOk c.n (symBits c ys) := by
  intro s hs
  obtain ⟨y, _, rfl⟩ := List.mem_map.1 hs
  exact bitsOf_length _ _

/-- The symbols of the program for a codeword. -/
def symOf (s : List Bool) : Sym := ⟨s.foldr (fun b v => 2 * v + b.toNat) 0, []⟩

theorem symOf_lt (s : List Bool) : (symOf s).bits < 2 ^ s.length := by
  induction s with
  | nil => decide
  | cons b s ih =>
    have ih : s.foldr (fun b v => 2 * v + b.toNat) 0 < 2 ^ s.length := ih
    show 2 * s.foldr (fun b v => 2 * v + b.toNat) 0 + b.toNat < _
    rw [List.length_cons, Nat.pow_succ]
    have : b.toNat < 2 := by cases b <;> decide
    omega

theorem bitsOf_symOf (s : List Bool) : bitsOf s.length (symOf s).bits = s := by
  induction s with
  | nil => rfl
  | cons b s ih =>
    have ih : bitsOf s.length (s.foldr (fun b v => 2 * v + b.toNat) 0) = s := ih
    have hb : b.toNat < 2 := by cases b <;> decide
    show bitsOf (s.length + 1) (2 * s.foldr (fun b v => 2 * v + b.toNat) 0 + b.toNat) = b :: s
    rw [bitsOf_succ, shr1, show (2 * s.foldr (fun b v => 2 * v + b.toNat) 0 + b.toNat) / 2 =
      s.foldr (fun b v => 2 * v + b.toNat) 0 by omega, ih, shl1_add_testBit_zero _ _ hb]
    congr 1
    cases b <;> rfl

theorem symBits_symOf (c : Code) (cw : List (List Bool)) (h : SymsOk c.n cw) : symBits c (cw.map symOf) = cw := by
  rw [symBits, List.map_map]
  conv => rhs; rw [← List.map_id cw]
  apply List.map_congr_left
  intro s hs
  have := bitsOf_symOf s
  rw [h s hs] at this
  exact this

/-- A code for which every symbol tells the input bit: a recursive one, or one in which the newest bit is used by some
polynomial. -/
def Code.Sees (c : Code) : Prop :=
  c.recursive = true ∨ ∃ j, j < c.n ∧ (c.polys.getD j 0).testBit (c.k - 1) = true

theorem taps_flip (k poly : Nat) (hk : 1 ≤ k) (h : List Bool) (hp : poly.testBit (k - 1) = true) :
    taps k poly (true :: h) ≠ taps k poly (false :: h) := by
  obtain ⟨n, rfl⟩ : ∃ n, k = n + 1 := ⟨k - 1, by omega⟩
  have key : ∀ x, ((List.range (n + 1)).countP fun m => poly.testBit (n + 1 - 1 - m) && (x :: h).getD m false) =
      x.toNat + (List.range n).countP fun m => poly.testBit (n - (m + 1)) && h.getD m false := by
    intro x
    rw [List.range_succ_eq_map, List.countP_cons, List.countP_map, Nat.add_comm]
    congr 1
    simp only [Nat.add_sub_cancel, Nat.sub_zero] at hp ⊢
    rw [hp]
    cases x <;> rfl
  rw [taps, taps, key, key]
  simp only [Bool.toNat_true, Bool.toNat_false]
  generalize List.countP _ _ = x
  have : x % 2 = 0 ∨ x % 2 = 1 := by omega
  rcases this with hx | hx
  · rw [show (1 + x) % 2 = 1 by omega, show (0 + x) % 2 = 0 by omega]; decide
  · rw [show (1 + x) % 2 = 0 by omega, show (0 + x) % 2 = 1 by omega]; decide

theorem outSym_inj (c : Code) (hk : c.Ok) (hs : c.Sees) (x y : Bool) (h : List Bool)
    (e : outSym c x h = outSym c y h) : x = y := by
  have he : ∀ j, j < c.n → outBit c x h j = outBit c y h j := by
    intro j hj
    have := congrArg (fun l => l[j]?) e
    simpa [outSym, hj] using this
  by_cases hr : c.recursive = true
  · have := he 0 hk.polys1
    simpa [outBit, hr] using this
  · rcases hs with hs | ⟨j, hj, hp⟩
    · exact absurd hs hr
    · have := he j hj
      simp only [outBit, hr, false_and, if_false, regBit, Bool.false_eq_true] at this
      have hf := taps_flip c.k (c.polys.getD j 0) (by have := hk.k3; omega) h hp
      cases x <;> cases y
      · rfl
      · exact absurd this.symm hf
      · exact absurd this hf
      · rfl

theorem codewordFrom_inj (c : Code) (hk : c.Ok) (hs : c.Sees) (xs : List Bool) : ∀ (ys h : List Bool),
    xs.length = ys.length → codewordFrom c h xs = codewordFrom c h ys → xs = ys := by
  induction xs with
  | nil => intro ys h hl _; exact (List.length_eq_zero_iff.1 hl.symm).symm
  | cons x xs ih =>
    intro ys h hl e
    cases ys with
    | nil => simp at hl
    | cons y ys =>
      simp only [codewordFrom, List.cons.injEq] at e
      have exy := outSym_inj c hk hs x y h e.1
      subst exy
      rw [ih ys _ (by simpa using hl) e.2]

/-- **C44, correction (what holds)**: if the codeword of every other input sequence of the same length differs in more
than `2 t` bits from that of the message with its tail, then the message is recovered from every received sequence
with at most `t` wrong bits, and the reported number of errors is the number of wrong bits.  Missing: it is not enough that the
codewords of *messages with tail* differ that much (`C44_tail_violated`). -/
theorem C44_correct_partial (c : Code) (h : c.Ok) (hf : c.Fb) (msg : List Bool) (ys : List Sym) (t tsize fuel : Nat)
    (inp : In) (hy : ∀ y ∈ ys, y.bits < 2 ^ c.n) (ht : ys.length ≤ tsize) (hlen : 8 * ys.length < 2 ^ 30 - 1)
    (hm : ys.length = msg.length + c.tailBits)
    (hfar : ∀ xs : List Bool, xs.length = ys.length → xs ≠ msg ++ List.replicate c.tailBits false →
      2 * t < hdist (codeword c xs) (codeword c (msg ++ List.replicate c.tailBits false)))
    (herr : hdist (codeword c (msg ++ List.replicate c.tailBits false)) (symBits c ys) ≤ t) :
    ∃ d, decodeSyms c none tsize ys Dec.init = some d ∧
      finish c none [] tsize fuel ⟨inp, d⟩ = some (msg.map Bool.toNat,
        hdist (codeword c (msg ++ List.replicate c.tailBits false)) (symBits c ys)) := by
  obtain ⟨d, xs, e1, e2, e3, e4⟩ := C43_hard_partial c h hf ys tsize fuel inp hy ht hlen (by omega)
  have hxs : xs = msg ++ List.replicate c.tailBits false := by
    apply Classical.byContradiction
    intro hne
    have h1 := hfar xs e2 hne
    have h2 := e4 (msg ++ List.replicate c.tailBits false) (by simp; omega)
    have h3 := hdist_triangle c.n (codeword c xs) (symBits c ys) (codeword c (msg ++ List.replicate c.tailBits false))
      (by rw [codeword, codewordFrom_length, e2]; simp [symBits])
      (by rw [codeword, codewordFrom_length]; simp [symBits]; omega)
      (codewordFrom_syms _ _ _) (symBits_syms _ _) (codewordFrom_syms _ _ _)
    rw [hdist_comm (symBits c ys)] at h3
    omega
  subst hxs
  refine ⟨d, e1, ?_⟩
  rw [e3, hm, Nat.add_sub_cancel, List.take_left]

/-- **C44, no errors**: for every code whose symbols tell the input bit (in particular for every recursive code and for
every code with a polynomial of full length), decoding the codeword of a message with its tail gives the message and no
errors. -/
theorem C44_roundtrip (c : Code) (h : c.Ok) (hf : c.Fb) (hs : c.Sees) (msg : List Bool) (tsize fuel : Nat) (inp : In)
    (ht : msg.length + c.tailBits ≤ tsize) (hlen : 8 * (msg.length + c.tailBits) < 2 ^ 30 - 1) :
    ∃ d, decodeSyms c none tsize ((codeword c (msg ++ List.replicate c.tailBits false)).map symOf) Dec.init = some d ∧
      finish c none [] tsize fuel ⟨inp, d⟩ = some (msg.map Bool.toNat, 0) := by
  have hsy := codewordFrom_syms c (msg ++ List.replicate c.tailBits false) []
  have hbits := symBits_symOf c _ hsy
  have hl : ((codeword c (msg ++ List.replicate c.tailBits false)).map symOf).length = msg.length + c.tailBits := by
    simp [codeword, codewordFrom_length]
  obtain ⟨d, e1, e2⟩ := C44_correct_partial c h hf msg ((codeword c (msg ++ List.replicate c.tailBits false)).map symOf) 0
    tsize fuel inp (by
      intro y hy
      obtain ⟨s, hs', rfl⟩ := List.mem_map.1 hy
      have := symOf_lt s
      rw [hsy s hs'] at this
      exact this) (by omega) (by omega) hl (by
      intro xs hx hne
      rw [hl] at hx
      rw [Nat.mul_zero]
      apply Nat.pos_of_ne_zero
      intro h0
      apply hne
      exact codewordFrom_inj c h hs xs _ [] (by simp [hx]) (hdist_eq_zero c.n _ _
        (by simp [codewordFrom_length, hx]) (codewordFrom_syms _ _ _) (codewordFrom_syms _ _ _) h0))
    (by rw [codeword, hbits, hdist_self]; omega)
  refine ⟨d, e1, ?_⟩
  rw [e2, codeword, hbits, hdist_self]

/-- **C44 is violated with a tail**: the codewords of the two messages of one bit differ in 5 bits, but two wrong bits
are not corrected. -/
theorem C44_tail_violated :
    ∃ (ys : List Sym) (d : Dec) (e : Nat),
      hdist (codeword code75 [true, false, false]) (codeword code75 [false, false, false]) = 5 ∧
      hdist (codeword code75 [true, false, false]) (symBits code75 ys) = 2 ∧
      decodeSyms code75 none 100 ys Dec.init = some d ∧ finish code75 none [] 100 0 ⟨In.init, d⟩ = some ([0], e) := by
  have key : ((decodeSyms code75 none 100 [⟨0, []⟩, ⟨1, []⟩, ⟨3, []⟩] Dec.init).bind fun d =>
    finish code75 none [] 100 0 ⟨In.init, d⟩) = some ([0], 1) := by decide +kernel
  cases hd : decodeSyms code75 none 100 [⟨0, []⟩, ⟨1, []⟩, ⟨3, []⟩] Dec.init with
  | none => rw [hd] at key; simp at key
  | some d =>
    rw [hd] at key
    exact ⟨_, d, 1, by decide +kernel, by decide +kernel, hd, key⟩

/-- The code of the Voyager probes used in the comments of the program, and a recursive code. -/
example : (⟨7, [0o171, 0o133], false, true⟩ : Code).Sees := Or.inr ⟨0, by decide, by decide⟩
example : (⟨3, [7, 5], true, false⟩ : Code).Fb := by intro _; decide

/-- An error in the first symbol is corrected. -/
example : ((decodeSyms code75 none 100 [⟨1, []⟩, ⟨1, []⟩, ⟨0, []⟩, ⟨1, []⟩, ⟨3, []⟩] Dec.init).bind fun d =>
    finish code75 none [] 100 0 ⟨In.init, d⟩) = some ([1, 0, 1], 1) := by decide +kernel
example : codeword code75 [true, false, true, false, false] =
    [[true, true], [true, false], [false, false], [true, false], [true, true]] := by decide +kernel

end Gensio.Convcode
