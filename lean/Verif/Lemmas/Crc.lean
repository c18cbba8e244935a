import Verif.Model.Crc
/-! Bit lists, the shift register and its relation to the table driven loops. -/
namespace Gensio.Crc

/-- Bitwise exclusive or of bit strings. -/
def xorL : List Bool → List Bool → List Bool := List.zipWith (· ^^ ·)

@[simp] theorem xorL_nil : xorL [] [] = [] := rfl
@[simp] theorem xorL_cons (a b : Bool) (l m : List Bool) : xorL (a :: l) (b :: m) = (a ^^ b) :: xorL l m := rfl
theorem xorL_length (l m : List Bool) (h : l.length = m.length) : (xorL l m).length = l.length := by
  simp [xorL, h]

theorem xorL_append (a b c d : List Bool) (h : a.length = b.length) :
    xorL (a ++ c) (b ++ d) = xorL a b ++ xorL c d := by
  simp [xorL, List.zipWith_append h]

theorem xorL_comm (a b : List Bool) : xorL a b = xorL b a := by
  simp only [xorL]; rw [List.zipWith_comm]; congr; funext x y; exact Bool.xor_comm _ _

theorem xorL_assoc (a b c : List Bool) : xorL (xorL a b) c = xorL a (xorL b c) := by
  induction a generalizing b c with
  | nil => simp [xorL]
  | cons x a ih =>
    cases b with
    | nil => simp [xorL]
    | cons y b =>
      cases c with
      | nil => simp [xorL]
      | cons z c => simp [ih]

theorem xorL_left_comm (a b c : List Bool) : xorL a (xorL b c) = xorL b (xorL a c) := by
  rw [← xorL_assoc, xorL_comm a b, xorL_assoc]

abbrev zeros (n : Nat) : List Bool := List.replicate n false

theorem xorL_zeros (a : List Bool) (n : Nat) (h : a.length = n) : xorL a (zeros n) = a := by
  induction a generalizing n with
  | nil => simp [xorL]
  | cons x a ih => subst h; simp [List.replicate_succ, ih]

theorem xorL_self (a : List Bool) : xorL a a = zeros a.length := by
  induction a with
  | nil => rfl
  | cons x a ih => simp [ih, List.replicate_succ]

theorem xorL_cancel {a b c : List Bool} (h1 : a.length = c.length) (h2 : b.length = c.length)
    (h : xorL a c = xorL b c) : a = b := by
  have := congrArg (fun t => xorL t c) h
  simp only [xorL_assoc, xorL_self] at this
  rwa [xorL_zeros _ _ h1, xorL_zeros _ _ h2] at this

/-- The generator without its leading coefficient, most significant first: 0x1021. -/
def poly : List Bool :=
  [false, false, false, true, false, false, false, false,
   false, false, true, false, false, false, false, true]

/-- Shift register, one bit. -/
def regStep (r : List Bool) (b : Bool) : List Bool :=
  match r with
  | [] => []
  | a :: r => if a ^^ b then xorL (r ++ [false]) poly else r ++ [false]

def regRun (r : List Bool) (w : List Bool) : List Bool := w.foldl regStep r

theorem regStep_length (r : List Bool) (b : Bool) (h : r.length = 16) : (regStep r b).length = 16 := by
  cases r with
  | nil => simp at h
  | cons a r =>
    simp at h
    simp only [regStep]; split
    · rw [xorL_length _ _ (by simp [h, poly])]; simp [h]
    · simp [h]

theorem regRun_length (w : List Bool) : ∀ r : List Bool, r.length = 16 → (regRun r w).length = 16 := by
  induction w with
  | nil => intro r h; exact h
  | cons b w ih => intro r h; exact ih _ (regStep_length r b h)

theorem regRun_append (r u v : List Bool) : regRun r (u ++ v) = regRun (regRun r u) v := by
  simp [regRun]

theorem regStep_linear (r s : List Bool) (b c : Bool) (hr : r.length = 16) (hs : s.length = 16) :
    regStep (xorL r s) (b ^^ c) = xorL (regStep r b) (regStep s c) := by
  cases r with
  | nil => simp at hr
  | cons a r =>
    cases s with
    | nil => simp at hs
    | cons d s =>
      simp at hr hs
      simp only [xorL_cons, regStep]
      have e1 : xorL r s ++ [false] = xorL (r ++ [false]) (s ++ [false]) := by
        rw [xorL_append _ _ _ _ (by omega)]; rfl
      have e2 : (a ^^ d ^^ (b ^^ c)) = ((a ^^ b) ^^ (d ^^ c)) := by
        cases a <;> cases b <;> cases c <;> cases d <;> rfl
      rw [e1, e2]
      have hl : xorL poly poly = zeros 16 := by decide
      cases a ^^ b <;> cases d ^^ c <;> simp only [Bool.xor_false, Bool.xor_true,
        Bool.not_true, Bool.not_false, if_true, if_false, Bool.false_eq_true]
      · rw [xorL_assoc]
      · rw [xorL_assoc, xorL_assoc, xorL_comm poly]
      · rw [xorL_assoc (r ++ [false]) poly, xorL_left_comm poly, hl, xorL_zeros]
        simp [hs]

theorem regRun_linear (u : List Bool) : ∀ (v r s : List Bool), u.length = v.length → r.length = 16 →
    s.length = 16 → regRun (xorL r s) (xorL u v) = xorL (regRun r u) (regRun s v) := by
  induction u with
  | nil => intro v r s h hr hs; cases v <;> simp [regRun, xorL] at h ⊢
  | cons b u ih =>
    intro v r s h hr hs
    cases v with
    | nil => simp at h
    | cons c v =>
      simp only [xorL_cons]
      show regRun (regStep (xorL r s) (b ^^ c)) (xorL u v) = _
      rw [regStep_linear r s b c hr hs,
        ih v _ _ (by simpa using h) (regStep_length r b hr) (regStep_length s c hs)]
      rfl

theorem poly_last : poly = poly.dropLast ++ [true] := by decide

theorem regStep_inj (r s : List Bool) (b : Bool) (hr : r.length = 16) (hs : s.length = 16)
    (h : regStep r b = regStep s b) : r = s := by
  cases r with
  | nil => simp at hr
  | cons a r =>
    cases s with
    | nil => simp at hs
    | cons d s =>
      simp at hr hs
      have key : ∀ t : List Bool, t.length = 15 →
          xorL (t ++ [false]) poly = xorL t poly.dropLast ++ [true] := by
        intro t ht
        rw [poly_last, xorL_append _ _ _ _ (by simp [ht, poly])]; simp [xorL]
      simp only [regStep, key r hr, key s hs] at h
      cases hab : a ^^ b <;> cases hdb : d ^^ b <;> simp [hab, hdb] at h
      · have : a = d := by cases a <;> cases b <;> cases d <;> simp_all
        rw [this, h]
      · have : a = d := by cases a <;> cases b <;> cases d <;> simp_all
        rw [this, xorL_cancel (by simp [hr, poly]) (by simp [hs, poly]) h]

theorem regRun_inj (w : List Bool) : ∀ (r s : List Bool), r.length = 16 → s.length = 16 →
    regRun r w = regRun s w → r = s := by
  induction w with
  | nil => intro r s _ _ h; exact h
  | cons b w ih =>
    intro r s hr hs h
    exact regStep_inj r s b hr hs (ih _ _ (regStep_length r b hr) (regStep_length s b hs) h)

/-- Feeding a register its own leading bits shifts them out. -/
theorem regRun_self (w : List Bool) : ∀ (r : List Bool), (regRun (w ++ r) w) = r ++ zeros w.length := by
  induction w with
  | nil => intro r; simp [regRun]
  | cons b w ih =>
    intro r
    show regRun (regStep (b :: (w ++ r)) b) w = _
    have : regStep (b :: (w ++ r)) b = w ++ (r ++ [false]) := by simp [regStep]
    rw [this, ih]
    simp [List.replicate_succ]

/-! ### Words as bit lists -/

/-- Most significant bit first. -/
def msbBits (n : Nat) (x : Nat) : List Bool := (List.range n).map fun i => x.testBit (n - 1 - i)
/-- Least significant bit first. -/
def lsbBits (n : Nat) (x : Nat) : List Bool := (List.range n).map fun i => x.testBit i

@[simp] theorem msbBits_length (n x : Nat) : (msbBits n x).length = n := by simp [msbBits]
@[simp] theorem lsbBits_length (n x : Nat) : (lsbBits n x).length = n := by simp [lsbBits]

theorem zipWith_map_range (n : Nat) (f g : Nat → Bool) :
    xorL ((List.range n).map f) ((List.range n).map g) = (List.range n).map fun i => f i ^^ g i := by
  apply List.ext_getElem
  · simp [xorL]
  · intro i h1 h2; simp [xorL]

theorem msbBits_xor (n x y : Nat) : msbBits n (x ^^^ y) = xorL (msbBits n x) (msbBits n y) := by
  simp only [msbBits, zipWith_map_range, Nat.testBit_xor]
theorem lsbBits_xor (n x y : Nat) : lsbBits n (x ^^^ y) = xorL (lsbBits n x) (lsbBits n y) := by
  simp only [lsbBits, zipWith_map_range, Nat.testBit_xor]

theorem bits_inj_lsb (n x y : Nat) (hx : x < 2 ^ n) (hy : y < 2 ^ n) (h : lsbBits n x = lsbBits n y) :
    x = y := by
  apply Nat.eq_of_testBit_eq
  intro i
  by_cases hi : i < n
  · have := congrArg (fun l => l[i]?) h
    simpa [lsbBits, hi] using this
  · rw [Nat.testBit_lt_two_pow (Nat.lt_of_lt_of_le hx (Nat.pow_le_pow_right (by omega) (by omega))),
      Nat.testBit_lt_two_pow (Nat.lt_of_lt_of_le hy (Nat.pow_le_pow_right (by omega) (by omega)))]

theorem bits_inj_msb (n x y : Nat) (hx : x < 2 ^ n) (hy : y < 2 ^ n) (h : msbBits n x = msbBits n y) :
    x = y := by
  apply Nat.eq_of_testBit_eq
  intro i
  by_cases hi : i < n
  · have := congrArg (fun l => l[n - 1 - i]?) h
    have h1 : n - 1 - i < n := by omega
    have h2 : n - 1 - (n - 1 - i) = i := by omega
    simpa [msbBits, h1, h2] using this
  · rw [Nat.testBit_lt_two_pow (Nat.lt_of_lt_of_le hx (Nat.pow_le_pow_right (by omega) (by omega))),
      Nat.testBit_lt_two_pow (Nat.lt_of_lt_of_le hy (Nat.pow_le_pow_right (by omega) (by omega)))]

/-- Bits of a message, most/least significant bit of each byte first. -/
def msgMsb (m : List UInt8) : List Bool := m.flatMap fun b => msbBits 8 b.toNat
def msgLsb (m : List UInt8) : List Bool := m.flatMap fun b => lsbBits 8 b.toNat

theorem msbBits_split (x : Nat) : msbBits 16 x = msbBits 8 (x / 256) ++ msbBits 8 (x % 256) := by
  apply List.ext_getElem
  · simp
  · intro i h1 h2
    simp at h1
    by_cases hi : i < 8
    · rw [List.getElem_append_left (by simpa using hi)]
      simp only [msbBits, List.getElem_map, List.getElem_range]
      rw [show (256 : Nat) = 2 ^ 8 from rfl, Nat.testBit_div_two_pow]; congr 1; omega
    · rw [List.getElem_append_right (by simpa using hi)]
      simp only [msbBits, List.getElem_map, List.getElem_range, List.length_map, List.length_range]
      rw [show (256 : Nat) = 2 ^ 8 from rfl, Nat.testBit_mod_two_pow]
      have : 8 - 1 - (i - 8) < 8 := by omega
      simp only [this, decide_true, Bool.true_and]; congr 1; omega

theorem lsbBits_split (x : Nat) : lsbBits 16 x = lsbBits 8 (x % 256) ++ lsbBits 8 (x / 256) := by
  apply List.ext_getElem
  · simp
  · intro i h1 h2
    simp at h1
    by_cases hi : i < 8
    · rw [List.getElem_append_left (by simpa using hi)]
      simp only [lsbBits, List.getElem_map, List.getElem_range]
      rw [show (256 : Nat) = 2 ^ 8 from rfl, Nat.testBit_mod_two_pow]
      simp [hi]
    · rw [List.getElem_append_right (by simpa using hi)]
      simp only [lsbBits, List.getElem_map, List.getElem_range, List.length_map, List.length_range]
      rw [show (256 : Nat) = 2 ^ 8 from rfl, Nat.testBit_div_two_pow]; congr 1; omega

theorem regRun_table (H L w : List Bool) (hH : H.length = 8) (hL : L.length = 8) (hw : w.length = 8) :
    regRun (H ++ L) w = xorL (L ++ zeros 8) (regRun (xorL H w ++ zeros 8) (zeros 8)) := by
  have e1 : H ++ L = xorL (w ++ L) (xorL H w ++ zeros 8) := by
    rw [xorL_append _ _ _ _ (by rw [xorL_length _ _ (by omega)]; omega), xorL_left_comm, xorL_self,
      xorL_zeros _ _ (by omega), xorL_zeros _ _ hL]
  have e2 : w = xorL w (zeros 8) := (xorL_zeros _ _ hw).symm
  have hx : (xorL H w).length = 8 := by rw [xorL_length _ _ (by omega)]; exact hH
  conv => lhs; rw [e1]; arg 2; rw [e2]
  rw [regRun_linear _ _ _ _ (by simp [hw]) (by simp [hw, hL]) (by simp [hx]), regRun_self, hw]

theorem crc16Table_ok : ∀ i : Fin 256,
    msbBits 16 (crc16Table[i.val]!).toNat = regRun (msbBits 8 i.val ++ zeros 8) (zeros 8) := by
  decide +kernel

theorem ccittTable_ok : ∀ i : Fin 256,
    lsbBits 16 (ccittTable[i.val]!).toNat = regRun (lsbBits 8 i.val ++ zeros 8) (zeros 8) := by
  decide +kernel

theorem xor_lt_256 (a b : Nat) (ha : a < 256) (hb : b < 256) : a ^^^ b < 256 :=
  Nat.xor_lt_two_pow (n := 8) ha hb

theorem crc16Byte_bits (c : UInt16) (b : UInt8) :
    msbBits 16 (crc16Byte c b).toNat = regRun (msbBits 16 c.toNat) (msbBits 8 b.toNat) := by
  have hc : c.toNat < 65536 := c.toNat_lt
  have hb : b.toNat < 256 := b.toNat_lt
  have hi : (((c >>> 8) ^^^ b.toUInt16) &&& 0xff).toNat = (c.toNat / 256) ^^^ b.toNat := by
    have h1 := xor_lt_256 (c.toNat / 256) b.toNat (by omega) hb
    have : ((c >>> 8) ^^^ b.toUInt16).toNat = (c.toNat / 256) ^^^ b.toNat := by
      simp [Nat.shiftRight_eq_div_pow]
    rw [UInt16.toNat_and, this]
    show _ &&& (2 ^ 8 - 1) = _
    rw [Nat.and_two_pow_sub_one_eq_mod]; exact Nat.mod_eq_of_lt h1
  have hs : (c <<< 8).toNat = 256 * (c.toNat % 256) := by
    simp [Nat.shiftLeft_eq]; omega
  have ht := crc16Table_ok ⟨_, xor_lt_256 (c.toNat / 256) b.toNat (by omega) hb⟩
  simp only at ht
  rw [crc16Byte, UInt16.toNat_xor, msbBits_xor, hi, ht, msbBits_xor, hs, msbBits_split (256 * _),
    msbBits_split c.toNat,
    regRun_table (msbBits 8 (c.toNat / 256)) (msbBits 8 (c.toNat % 256)) (msbBits 8 b.toNat)
      (msbBits_length _ _) (msbBits_length _ _) (msbBits_length _ _)]
  rw [Nat.mul_div_cancel_left _ (by omega), Nat.mul_mod_right]
  rfl

theorem ccittByte_bits (c : UInt16) (b : UInt8) :
    lsbBits 16 (ccittByte c b).toNat = regRun (lsbBits 16 c.toNat) (lsbBits 8 b.toNat) := by
  have hc : c.toNat < 65536 := c.toNat_lt
  have hb : b.toNat < 256 := b.toNat_lt
  have hi : ((c ^^^ b.toUInt16) &&& 0xff).toNat = (c.toNat % 256) ^^^ b.toNat := by
    rw [UInt16.toNat_and]
    show _ &&& (2 ^ 8 - 1) = _
    rw [Nat.and_two_pow_sub_one_eq_mod, UInt16.toNat_xor]
    rw [Nat.xor_mod_two_pow]; simp [Nat.mod_eq_of_lt hb]
  have hs : (c >>> 8).toNat = c.toNat / 256 := by
    simp [Nat.shiftRight_eq_div_pow]
  have ht := ccittTable_ok ⟨_, xor_lt_256 (c.toNat % 256) b.toNat (by omega) hb⟩
  simp only at ht
  have hd : lsbBits 16 (c.toNat / 256) = lsbBits 8 (c.toNat / 256) ++ zeros 8 := by
    have h1 : c.toNat / 256 < 256 := by omega
    rw [lsbBits_split, Nat.mod_eq_of_lt h1, Nat.div_eq_of_lt h1]; rfl
  rw [ccittByte, UInt16.toNat_xor, lsbBits_xor, hi, ht, lsbBits_xor, hs, hd,
    lsbBits_split c.toNat,
    regRun_table (lsbBits 8 (c.toNat % 256)) (lsbBits 8 (c.toNat / 256)) (lsbBits 8 b.toNat)
      (lsbBits_length _ _) (lsbBits_length _ _) (lsbBits_length _ _)]

theorem crc16_bits (m : List UInt8) : ∀ c : UInt16,
    msbBits 16 (crc16 c m).toNat = regRun (msbBits 16 c.toNat) (msgMsb m) := by
  induction m with
  | nil => intro c; rfl
  | cons b m ih =>
    intro c
    show msbBits 16 (crc16 (crc16Byte c b) m).toNat = _
    rw [ih, crc16Byte_bits, ← regRun_append]; rfl

theorem ccitt_bits (m : List UInt8) : ∀ c : UInt16,
    lsbBits 16 (ccitt c m).toNat = regRun (lsbBits 16 c.toNat) (msgLsb m) := by
  induction m with
  | nil => intro c; rfl
  | cons b m ih =>
    intro c
    show lsbBits 16 (ccitt (ccittByte c b) m).toNat = _
    rw [ih, ccittByte_bits, ← regRun_append]; rfl

end Gensio.Crc
