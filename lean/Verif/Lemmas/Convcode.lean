import Verif.Model.Convcode

/-! Facts about the code tables and about the bit operations used in lib/convcode.c. -/

namespace Gensio.Convcode

/-! #### Bits -/

theorem shr1 (v : Nat) : v >>> 1 = v / 2 := by rw [Nat.shiftRight_eq_div_pow]

theorem shl1_or (i b : Nat) (h : b < 2) : (i <<< 1) ||| b = 2 * i + b := by
  rw [Nat.shiftLeft_eq, Nat.mul_comm]
  exact (Nat.two_pow_add_eq_or_of_lt (i := 1) (by simpa using h) i).symm

theorem shl1_add_testBit_zero (i b : Nat) (h : b < 2) : (2 * i + b).testBit 0 = (b == 1) := by
  rw [Nat.testBit_zero]
  have h : b = 0 ∨ b = 1 := by omega
  rcases h with rfl | rfl <;> simp [Nat.add_mod]

theorem shl1_add_testBit_succ (i b m : Nat) (h : b < 2) : (2 * i + b).testBit (m + 1) = i.testBit m := by
  rw [Nat.testBit_succ]
  congr 1
  omega

theorem popLoop_eq (n : Nat) : ∀ v, popLoop n v = (List.range n).countP fun j => v.testBit j := by
  induction n with
  | zero => intro v; rfl
  | succ n ih =>
    intro v
    rw [popLoop, ih, List.range_succ_eq_map, List.countP_cons, List.countP_map, Nat.and_one_is_mod, Nat.testBit_zero]
    have : ((fun j => v.testBit j) ∘ Nat.succ) = fun j => (v >>> 1).testBit j := by
      funext j
      simp only [Function.comp, Nat.succ_eq_add_one, Nat.testBit_succ, shr1]
    rw [this, Nat.add_comm]
    congr 1
    have : v % 2 = 0 ∨ v % 2 = 1 := by omega
    rcases this with h | h <;> simp [h]

theorem countP_range_le (P : Nat → Bool) (a b : Nat) (h : a ≤ b) (hz : ∀ j, a ≤ j → j < b → P j = false) :
    (List.range b).countP P = (List.range a).countP P := by
  induction b with
  | zero => have : a = 0 := by omega
            rw [this]
  | succ b ih =>
    by_cases e : a = b + 1
    · rw [e]
    · rw [List.range_succ, List.countP_append, ih (by omega) fun j h1 h2 => hz j h1 (by omega)]
      simp [hz b (by omega) (by omega)]

theorem popcount_lt (v n : Nat) (hn : n ≤ 32) (hv : v < 2 ^ n) :
    popcount v = (List.range n).countP fun j => v.testBit j := by
  rw [popcount, popLoop_eq]
  apply countP_range_le _ _ _ hn
  intro j h1 _
  exact Nat.testBit_lt_two_pow (Nat.lt_of_lt_of_le hv (Nat.pow_le_pow_right (by omega) h1))

theorem odd_lt (v : Nat) : odd v < 2 := Nat.mod_lt _ (by omega)

theorem reverseLoop_testBit (k : Nat) : ∀ (val rv m : Nat),
    (reverseLoop k val rv).testBit m = if m < k then val.testBit (k - 1 - m) else rv.testBit (m - k) := by
  induction k with
  | zero => intro val rv m; simp [reverseLoop]
  | succ k ih =>
    intro val rv m
    rw [reverseLoop, ih]
    by_cases h1 : m < k
    · rw [if_pos h1, if_pos (by omega), shr1, ← Nat.testBit_succ]
      congr 1; omega
    · rw [if_neg h1]
      have hb : val &&& 1 < 2 := by rw [Nat.and_one_is_mod]; omega
      rw [shl1_or _ _ hb]
      by_cases h2 : m = k
      · subst h2
        rw [if_pos (by omega), Nat.sub_self, shl1_add_testBit_zero _ _ hb]
        rw [Nat.and_one_is_mod, show m + 1 - 1 - m = 0 by omega, Nat.testBit_zero]; rfl
      · rw [if_neg (by omega)]
        obtain ⟨d, hd⟩ : ∃ d, m - k = d + 1 := ⟨m - k - 1, by omega⟩
        rw [hd, shl1_add_testBit_succ _ _ _ hb]
        congr 1; omega

theorem reverseBits_testBit (k val m : Nat) :
    (reverseBits k val).testBit m = (decide (m < k) && val.testBit (k - 1 - m)) := by
  rw [reverseBits, reverseLoop_testBit]
  by_cases h : m < k <;> simp [h]

theorem setBit_eq (p b : Nat) (hp : p < 2 ^ 15) : setBit p b = 2 ^ 15 * b + p := by
  rw [setBit, Nat.or_comm, Nat.shiftLeft_eq, Nat.mul_comm, Nat.two_pow_add_eq_or_of_lt hp]

theorem stVal_setBit (p b : Nat) (hp : p < 2 ^ 15) : stVal (setBit p b) = p := by
  rw [setBit_eq p b hp, stVal, Nat.mul_add_mod, Nat.mod_eq_of_lt hp]

theorem stBit_setBit (p b : Nat) (hp : p < 2 ^ 15) : stBit (setBit p b) = b := by
  rw [setBit_eq p b hp, stBit, Nat.shiftRight_eq_div_pow]
  omega

/-! #### Tables -/

theorem states_eq (c : Code) : c.states = 2 ^ (c.k - 1) := by rw [Code.states, Nat.one_shiftLeft]

theorem states_half (c : Code) (h : c.Ok) : c.states = 2 * 2 ^ (c.k - 2) := by
  have := h.k3
  rw [states_eq, show c.k - 1 = (c.k - 2) + 1 by omega, Nat.pow_succ, Nat.mul_comm]

theorem states_pos (c : Code) : 0 < c.states := by rw [states_eq]; exact Nat.two_pow_pos _

theorem states_le (c : Code) (h : c.Ok) : c.states ≤ 2 ^ 15 := by
  have := h.k16
  rw [states_eq]; exact Nat.pow_le_pow_right (by omega) (by omega)

/-- The bit shifted into the register. -/
def Code.nbit (c : Code) (b i : Nat) : Nat := if c.recursive then c.rbit b i else b

theorem nbit_lt (c : Code) (b i : Nat) (hb : b < 2) : c.nbit b i < 2 := by
  rw [Code.nbit]; split
  · exact odd_lt _
  · exact hb

theorem next_eq (c : Code) (b i : Nat) (hb : b < 2) : c.next b i = (2 * i + c.nbit b i) % c.states := by
  have hn := nbit_lt c b i hb
  rw [Code.next, states_eq]
  rw [Code.nbit] at hn ⊢
  split
  · rename_i h
    rw [if_pos h] at hn
    rw [shl1_or _ _ hn, Nat.and_two_pow_sub_one_eq_mod]
  · rw [shl1_or _ _ hb, Nat.and_two_pow_sub_one_eq_mod]

theorem next_lt (c : Code) (b i : Nat) (hb : b < 2) : c.next b i < c.states := by
  rw [next_eq c b i hb]; exact Nat.mod_lt _ (states_pos c)

/-- What a recursive code needs to be decodable: the feedback polynomial uses the input bit. -/
def Code.Fb (c : Code) : Prop := c.recursive = true → (c.polys.getD 0 0).testBit (c.k - 1) = true

theorem rpoly_getD (c : Code) (j : Nat) : c.rpoly j = reverseBits c.k (c.polys.getD j 0) := by
  rw [Code.rpoly, Code.rpolys]
  simp only [List.getD_eq_getElem?_getD, List.getElem?_map]
  cases c.polys[j]? with
  | some v => rfl
  | none =>
    apply Nat.eq_of_testBit_eq
    intro m
    simp [reverseBits_testBit]

theorem odd_and (x p : Nat) : odd (x &&& p) = ((List.range 32).countP fun j => x.testBit j && p.testBit j) % 2 := by
  rw [odd, popcount, popLoop_eq]
  simp [Nat.testBit_and]

theorem rbit_ne (c : Code) (h : c.Ok) (hr : c.recursive = true) (hf : c.Fb) (i : Nat) : c.rbit 0 i ≠ c.rbit 1 i := by
  have hk := h.k3
  rw [Code.rbit, Code.rbit, shl1_or _ _ (by omega), shl1_or _ _ (by omega), odd_and, odd_and]
  have key : ∀ b, b < 2 → ((List.range 32).countP fun j => (2 * i + b).testBit j && (c.rpoly 0).testBit j) =
      b + (List.range 31).countP fun j => i.testBit j && (c.rpoly 0).testBit (j + 1) := by
    intro b hb
    rw [show (32 : Nat) = 31 + 1 from rfl, List.range_succ_eq_map, List.countP_cons, List.countP_map,
      shl1_add_testBit_zero _ _ hb, rpoly_getD, reverseBits_testBit]
    have : ((fun j => (2 * i + b).testBit j && (reverseBits c.k (c.polys.getD 0 0)).testBit j) ∘ Nat.succ) =
        fun j => i.testBit j && (reverseBits c.k (c.polys.getD 0 0)).testBit (j + 1) := by
      funext j
      simp only [Function.comp, Nat.succ_eq_add_one, shl1_add_testBit_succ _ _ _ hb]
    rw [this, Nat.sub_zero, hf hr, Nat.add_comm]
    congr 1
    have : b = 0 ∨ b = 1 := by omega
    rcases this with rfl | rfl
    · simp
    · simp; omega
  rw [key 0 (by omega), key 1 (by omega)]
  omega

theorem prevBit_lt (c : Code) (p i : Nat) : prevBit c p i < 2 := by
  rw [prevBit]; split
  · rw [Nat.and_one_is_mod]; omega
  · split <;> omega

/-- The two predecessors `decode_one_state` looks at are all there are. -/
theorem pred_iff (c : Code) (h : c.Ok) (hf : c.Fb) (i : Nat) (hi : i < c.states) (p : Nat) (hp : p < c.states)
    (b : Nat) (hb : b < 2) :
    c.next b p = i ↔ (p = i >>> 1 ∨ p = (i >>> 1) ||| (1 <<< (c.k - 2))) ∧ b = prevBit c p i := by
  have hs := states_half c h
  have hor : (i >>> 1) ||| (1 <<< (c.k - 2)) = i / 2 + 2 ^ (c.k - 2) := by
    rw [Nat.one_shiftLeft, Nat.or_comm, shr1]
    have := Nat.two_pow_add_eq_or_of_lt (i := c.k - 2) (b := i / 2) (by omega) 1
    rw [Nat.mul_one] at this
    omega
  rw [hor, shr1]
  generalize hM : 2 ^ (c.k - 2) = M at *
  rw [next_eq c b p hb, hs]
  have hmod : ∀ x, x < 2 → ((2 * p + x) % (2 * M) = i ↔ (p = i / 2 ∨ p = i / 2 + M) ∧ x = i % 2) := by
    intro x hx
    by_cases hpm : p < M
    · rw [Nat.mod_eq_of_lt (by omega)]; omega
    · have : 2 * p + x = (2 * (p - M) + x) + 2 * M := by omega
      rw [this, Nat.add_mod_right, Nat.mod_eq_of_lt (by omega)]; omega
  rw [hmod _ (nbit_lt c b p hb)]
  constructor
  · rintro ⟨h1, h2⟩
    refine ⟨h1, ?_⟩
    rw [prevBit]
    by_cases hr : c.recursive = true
    · simp only [hr, Bool.not_true, Bool.false_eq_true, if_false]
      have hne := rbit_ne c h hr hf p
      rw [Code.nbit, if_pos hr] at h2
      have e0 : c.next 0 p = i ↔ c.rbit 0 p = i % 2 := by
        rw [next_eq c 0 p (by omega), hs, hmod _ (nbit_lt c 0 p (by omega)), Code.nbit, if_pos hr]
        constructor
        · exact fun h => h.2
        · exact fun h => ⟨h1, h⟩
      have hb' : b = 0 ∨ b = 1 := by omega
      rcases hb' with rfl | rfl
      · rw [if_pos (e0.2 h2)]
      · rw [if_neg fun h => hne ((e0.1 h).trans h2.symm)]
    · simp only [hr, Bool.not_false, if_true, Nat.and_one_is_mod]
      rw [Code.nbit, if_neg hr] at h2
      exact h2
  · rintro ⟨h1, h2⟩
    refine ⟨h1, ?_⟩
    rw [prevBit] at h2
    rw [Code.nbit]
    by_cases hr : c.recursive = true
    · simp only [hr, Bool.not_true, Bool.false_eq_true, if_false] at h2
      rw [if_pos hr]
      have hne := rbit_ne c h hr hf p
      have e0 : c.next 0 p = i ↔ c.rbit 0 p = i % 2 := by
        rw [next_eq c 0 p (by omega), hs, hmod _ (nbit_lt c 0 p (by omega)), Code.nbit, if_pos hr]
        constructor
        · exact fun h => h.2
        · exact fun h => ⟨h1, h⟩
      have l0 : c.rbit 0 p < 2 := odd_lt _
      have l1 : c.rbit 1 p < 2 := odd_lt _
      by_cases h0 : c.next 0 p = i
      · rw [if_pos h0] at h2
        subst h2; exact e0.1 h0
      · rw [if_neg h0] at h2
        subst h2
        have := fun x => h0 (e0.2 x)
        omega
    · simp only [hr, Bool.not_false, if_true, Nat.and_one_is_mod] at h2
      rw [if_neg hr]
      exact h2

theorem preds_lt (c : Code) (h : c.Ok) (i : Nat) (hi : i < c.states) :
    i >>> 1 < c.states ∧ (i >>> 1) ||| (1 <<< (c.k - 2)) < c.states := by
  have hs := states_half c h
  have hor : (i >>> 1) ||| (1 <<< (c.k - 2)) = i / 2 + 2 ^ (c.k - 2) := by
    rw [Nat.one_shiftLeft, Nat.or_comm, shr1]
    have := Nat.two_pow_add_eq_or_of_lt (i := c.k - 2) (b := i / 2) (by omega) 1
    rw [Nat.mul_one] at this
    omega
  rw [hor, shr1]
  omega

theorem convLoop_testBit (x : Nat) (ps : List Nat) : ∀ (j acc m : Nat),
    (convLoop x ps j acc).testBit m =
      (acc.testBit m || (decide (j ≤ m ∧ m < j + ps.length) && decide (odd (x &&& ps.getD (m - j) 0) = 1))) := by
  induction ps with
  | nil => intro j acc m; simp [convLoop]; omega
  | cons p ps ih =>
    intro j acc m
    rw [convLoop, ih, Nat.testBit_or, Nat.testBit_shiftLeft]
    by_cases h1 : m < j
    · simp [show ¬ j ≤ m by omega, show ¬ j + 1 ≤ m by omega]
    · by_cases h2 : m = j
      · subst h2
        have := odd_lt (x &&& p)
        have e : odd (x &&& p) = 0 ∨ odd (x &&& p) = 1 := by omega
        rcases e with e | e <;> simp [e] <;> omega
      · have hlt : (odd (x &&& p)).testBit (m - j) = false :=
          Nat.testBit_lt_two_pow (Nat.lt_of_lt_of_le (odd_lt _) (by
            rw [show (2 : Nat) = 2 ^ 1 from rfl, ← Nat.pow_mul]
            exact Nat.pow_le_pow_right (by omega) (by omega)))
        obtain ⟨d, hd⟩ : ∃ d, m - j = d + 1 := ⟨m - j - 1, by omega⟩
        rw [hlt, show m - (j + 1) = d by omega, hd]
        simp only [Bool.and_false, Bool.or_false, List.getD_cons_succ, List.length_cons]
        congr 2
        exact decide_eq_decide.2 ⟨fun h => ⟨by omega, by omega⟩, fun h => ⟨by omega, by omega⟩⟩

theorem convert_testBit (c : Code) (b i m : Nat) (hb : b < 2) (hc : 1 ≤ c.n) :
    (c.convert b i).testBit m =
      (decide (m < c.n) && (if c.recursive = true ∧ m = 0 then b == 1
        else decide (odd ((2 * i + c.nbit b i) &&& c.rpoly m) = 1))) := by
  have hlen : c.rpolys.length = c.n := by simp [Code.rpolys, Code.n]
  have hn := nbit_lt c b i hb
  rw [Code.convert]
  by_cases hr : c.recursive = true
  · rw [if_pos hr]
    rw [Code.nbit, if_pos hr] at hn ⊢
    rw [shl1_or _ _ hn, convLoop_testBit]
    by_cases h0 : m = 0
    · subst h0
      have hb' : b = 0 ∨ b = 1 := by omega
      rcases hb' with rfl | rfl <;> simp [hr] <;> omega
    · have hbt : b.testBit m = false := Nat.testBit_lt_two_pow (Nat.lt_of_lt_of_le hb (by
        rw [show (2 : Nat) = 2 ^ 1 from rfl, ← Nat.pow_mul]; exact Nat.pow_le_pow_right (by omega) (by omega)))
      rw [hbt, Bool.false_or, if_neg (by simp [h0]), List.length_drop, hlen]
      rw [show decide (1 ≤ m ∧ m < 1 + (c.n - 1)) = decide (m < c.n) from
          decide_eq_decide.2 ⟨fun h => by omega, fun h => ⟨by omega, by omega⟩⟩,
        show (c.rpolys.drop 1).getD (m - 1) 0 = c.rpoly m by
          rw [Code.rpoly, List.getD_eq_getElem?_getD, List.getElem?_drop, List.getD_eq_getElem?_getD,
            show 1 + (m - 1) = m by omega]]
  · rw [if_neg hr]
    rw [Code.nbit, if_neg hr] at hn ⊢
    rw [shl1_or _ _ hn, convLoop_testBit, if_neg (by simp [hr]), hlen, Code.rpoly]
    simp

theorem convert_lt (c : Code) (b i : Nat) (hb : b < 2) (hc : 1 ≤ c.n) : c.convert b i < 2 ^ c.n := by
  apply Nat.lt_pow_two_of_testBit
  intro m hm
  rw [convert_testBit c b i m hb hc]
  simp [show ¬ m < c.n by omega]

end Gensio.Convcode
