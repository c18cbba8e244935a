import Verif.Model.CLib
/-! # Facts about the C library functions -/
namespace Gensio.CLib

theorem isDigit_iff (c : UInt8) : isDigit c = true ↔ 48 ≤ c.toNat ∧ c.toNat ≤ 57 := by
  simp [isDigit, UInt8.le_iff_toNat_le]

theorem isDigit_ofNat (n : Nat) (h : n < 10) : isDigit (UInt8.ofNat (48 + n)) = true := by
  rw [isDigit_iff]
  have : (UInt8.ofNat (48 + n)).toNat = 48 + n := by simp; omega
  omega

theorem dec_digits (n : Nat) : ∀ c ∈ dec n, isDigit c = true := by
  fun_induction dec n with
  | case1 n h => intro c hc; rw [List.mem_singleton] at hc; subst hc; exact isDigit_ofNat n h
  | case2 n h ih =>
    intro c hc
    rw [List.mem_append] at hc
    rcases hc with hc | hc
    · exact ih c hc
    · rw [List.mem_singleton] at hc; subst hc; exact isDigit_ofNat _ (by omega)

theorem dec_ne_nil (n : Nat) : dec n ≠ [] := by
  rw [dec]; split <;> simp

theorem digits_append (l r : List UInt8) (acc : Nat) (h : ∀ c ∈ l, isDigit c = true) :
    digits acc (l ++ r) = digits (digits acc l) r := by
  induction l generalizing acc with
  | nil => simp [digits]
  | cons c l ih =>
    have hc := h c (by simp)
    simp only [List.cons_append, digits, hc, if_true]
    exact ih _ (fun x hx => h x (by simp [hx]))

theorem digits_dec (n : Nat) : digits 0 (dec n) = n := by
  fun_induction dec n with
  | case1 n h =>
    simp only [digits, isDigit_ofNat n h, if_true]
    have : (UInt8.ofNat (48 + n)).toNat = 48 + n := by simp; omega
    omega
  | case2 n h ih =>
    rw [digits_append _ _ _ (dec_digits _), ih]
    have h2 : n % 10 < 10 := by omega
    simp only [digits, isDigit_ofNat _ h2, if_true]
    have : (UInt8.ofNat (48 + n % 10)).toNat = 48 + n % 10 := by simp; omega
    omega

theorem digits_stop (r : List UInt8) (acc : Nat) (h : ∀ c t, r = c :: t → isDigit c = false) :
    digits acc r = acc := by
  cases r with
  | nil => rfl
  | cons c t => simp [digits, h c t rfl]

theorem dropWhile_digits (l r : List UInt8) (h : ∀ c ∈ l, isDigit c = true)
    (hr : ∀ c t, r = c :: t → isDigit c = false) : (l ++ r).dropWhile isDigit = r := by
  induction l with
  | nil =>
    cases r with
    | nil => rfl
    | cons c t => simp [List.dropWhile, hr c t rfl]
  | cons c l ih =>
    simp only [List.cons_append, List.dropWhile, h c (by simp)]
    exact ih (fun x hx => h x (by simp [hx]))

theorem sign_digit (c : UInt8) (t : List UInt8) (h : isDigit c = true) : sign (c :: t) = (false, c :: t) := by
  rw [isDigit_iff] at h
  have hs : isSpace c = false := by
    simp only [isSpace, Bool.or_eq_false_iff, decide_eq_false_iff_not, Bool.and_eq_false_iff]
    constructor
    · intro hc; subst hc; simp at h
    · right; simp [UInt8.le_iff_toNat_le]; omega
  have h1 : c ≠ 45 := by intro hc; subst hc; simp at h
  have h2 : c ≠ 43 := by intro hc; subst hc; simp at h
  simp only [sign, List.dropWhile, hs]
  split
  · rename_i heq; simp at heq; exact absurd heq.1 h1
  · rename_i heq; simp at heq; exact absurd heq.1 h2
  · rfl

/-- `strtoul` reads back what `%d` printed, and stops at the first other character. -/
theorem strtoul10_dec (n : Nat) (r : List UInt8) (hn : n < 2 ^ 64)
    (hr : ∀ c t, r = c :: t → isDigit c = false) : strtoul10 (dec n ++ r) = (n, r) := by
  have hd := dec_digits n
  have hv : digits 0 (dec n ++ r) = n := by
    rw [digits_append _ _ _ hd, digits_dec, digits_stop _ _ hr]
  have hw := dropWhile_digits (dec n) r hd hr
  cases hdn : dec n with
  | nil => exact absurd hdn (dec_ne_nil n)
  | cons c t =>
    rw [hdn] at hv hw hd
    have hc := hd c (by simp)
    simp only [List.cons_append] at hv hw ⊢
    rw [strtoul10, sign_digit c _ hc]
    simp only [hc, if_true, hv, hw, Bool.false_eq_true, if_false]
    rw [if_neg (by omega)]

theorem mem_dropWhile {α : Type} (p : α → Bool) (x : α) (hx : p x = false) (l : List α) (h : x ∈ l) :
    x ∈ l.dropWhile p := by
  induction l with
  | nil => exact h
  | cons a l ih =>
    rw [List.dropWhile]
    cases hp : p a with
    | true =>
      rcases List.mem_cons.1 h with h | h
      · subst h; rw [hx] at hp; cases hp
      · exact ih h
    | false => exact h

/-- A character that is no space, sign or digit survives `strtoul`. -/
theorem mem_strtoul10 (x : UInt8) (h1 : isSpace x = false) (h2 : isDigit x = false) (h3 : x ≠ 45) (h4 : x ≠ 43)
    (s : List UInt8) (h : x ∈ s) : x ∈ (strtoul10 s).2 := by
  have hs : x ∈ (sign s).2 := by
    have := mem_dropWhile isSpace x h1 s h
    rw [sign]
    split
    · rename_i r heq; rw [heq] at this; simp [h3] at this; exact this
    · rename_i r heq; rw [heq] at this; simp [h4] at this; exact this
    · exact this
  rw [strtoul10]
  cases hd : (sign s).2 with
  | nil => rw [hd] at hs; cases hs
  | cons c t =>
    rw [hd] at hs
    simp only
    split
    · exact mem_dropWhile isDigit x h2 _ hs
    · exact h

end Gensio.CLib
