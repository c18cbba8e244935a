import Verif.Lemmas.Pparm

/-!
# C88-C91: values of parameters

`NumText b t neg m` says what a number in the notation of C looks like and which sign and magnitude it has; `TimeText` says what
a time looks like and how long it is.
-/
namespace Gensio.Pparm
open CLib

/-! ## C90: keys and plain values -/

/-- A parameter has the key exactly when it is the key, up to the case of letters, an equal sign and the value. -/
theorem C90_value (st key v : List UInt8) :
    value false st key = some v ↔ ∃ k, st = k ++ 61 :: v ∧ k.length = key.length ∧ k.map toLower = key.map toLower := by
  unfold value
  simp only [Bool.false_eq_true, if_false, ne_eq, ite_not]
  constructor
  · intro h
    split at h
    · rename_i e
      split at h
      · rename_i w hw
        simp only [Option.some.injEq] at h
        subst h
        refine ⟨st.take key.length, ?_, ?_, e⟩
        · rw [← hw, List.take_append_drop]
        · have := congrArg List.length e
          simpa using this
      · cases h
    · cases h
  · rintro ⟨k, rfl, hl, e⟩
    rw [← hl]
    simp [e]

/-- After a message no parameter is taken. -/
theorem C90_err (st key : List UInt8) : value true st key = none ∧ bool true st key = .no true := by
  simp [value, bool]

/-- A truth value is set exactly by the key alone or by one of the eight words; other words give a message. -/
theorem C90_bool (st key : List UInt8) (b : Bool) :
    bool false st key = .ok b false ↔
      (st.map toLower = key.map toLower ∧ b = true) ∨
      (st.map toLower ≠ key.map toLower ∧ ∃ v, value false st key = some v ∧
        v ∈ (if b then [[116, 114, 117, 101], [49], [121, 101, 115], [111, 110]]
          else [[102, 97, 108, 115, 101], [48], [110, 111], [111, 102, 102]] : List (List UInt8))) := by
  unfold bool
  simp only [Bool.false_eq_true, if_false]
  by_cases e : st.map toLower = key.map toLower
  · simp [e, Res.ok, eq_comm]
  · rw [if_neg e]
    simp only [e, false_and, false_or, ne_eq, not_false_eq_true, true_and]
    cases hv : value false st key with
    | none => simp [Res.no, Res.ok]
    | some v =>
      simp only [Option.some.injEq, exists_eq_left']
      split
      · rename_i hn
        have : v = [] := by simpa using hn
        subst this
        cases b <;> simp [Res.bad, Res.ok]
      · split
        · rename_i h1
          simp only [Bool.or_eq_true, decide_eq_true_eq] at h1
          cases b
          · rcases h1 with ((rfl | rfl) | rfl) | rfl <;> simp [Res.ok]
          · rcases h1 with ((rfl | rfl) | rfl) | rfl <;> simp
        · rename_i h1
          split
          · rename_i h2
            simp only [Bool.or_eq_true, decide_eq_true_eq] at h2
            cases b
            · rcases h2 with ((rfl | rfl) | rfl) | rfl <;> simp
            · rcases h2 with ((rfl | rfl) | rfl) | rfl <;> simp [Res.ok]
          · rename_i h2
            simp only [Bool.or_eq_true, decide_eq_true_eq, not_or] at h1 h2
            cases b <;> simp [Res.bad, Res.ok, h1, h2]

/-- An enumeration gives the value of the first entry with that name, up to the case of letters; other names give a message. -/
theorem C90_enum (st key v : List UInt8) (l : List (List UInt8 × Int)) (h : value false st key = some v) :
    (∀ x, enum false st key l = .ok x false ↔
      ∃ a n b, l = a ++ (n, x) :: b ∧ v.map toLower = n.map toLower ∧ ∀ p ∈ a, v.map toLower ≠ p.1.map toLower) ∧
    ((∀ p ∈ l, v.map toLower ≠ p.1.map toLower) → enum false st key l = .bad) := by
  have hf : ∀ l : List (List UInt8 × Int), ∀ x, enumFind v l = some x ↔
      ∃ a n b, l = a ++ (n, x) :: b ∧ v.map toLower = n.map toLower ∧ ∀ p ∈ a, v.map toLower ≠ p.1.map toLower := by
    intro l
    induction l with
    | nil => intro x; simp [enumFind]
    | cons q l ih =>
      intro x
      obtain ⟨n, y⟩ := q
      unfold enumFind
      by_cases e : v.map toLower = n.map toLower
      · rw [if_pos e]
        constructor
        · intro h
          simp only [Option.some.injEq] at h
          subst h
          exact ⟨[], n, l, rfl, e, by simp⟩
        · rintro ⟨a, n', b, e1, e2, e3⟩
          cases a with
          | nil => simp at e1; rw [e1.1.2]
          | cons p a =>
            simp only [List.cons_append, List.cons.injEq] at e1
            exact absurd e (by rw [show n = p.1 by rw [← e1.1]]; exact e3 p (by simp))
      · rw [if_neg e, ih]
        constructor
        · rintro ⟨a, n', b, e1, e2, e3⟩
          refine ⟨(n, y) :: a, n', b, by rw [e1]; rfl, e2, ?_⟩
          intro p hp
          rcases List.mem_cons.1 hp with rfl | hp
          · exact e
          · exact e3 p hp
        · rintro ⟨a, n', b, e1, e2, e3⟩
          cases a with
          | nil => simp at e1; exact absurd (by rw [e1.1.1]; exact e2) e
          | cons p a =>
            simp only [List.cons_append, List.cons.injEq] at e1
            exact ⟨a, n', b, e1.2, e2, fun q hq => e3 q (List.mem_cons_of_mem _ hq)⟩
  have hn : ∀ l : List (List UInt8 × Int), (∀ p ∈ l, v.map toLower ≠ p.1.map toLower) → enumFind v l = none := by
    intro l
    induction l with
    | nil => intro _; rfl
    | cons q l ih =>
      intro hp
      unfold enumFind
      rw [if_neg (hp q (by simp)), ih fun p h => hp p (List.mem_cons_of_mem _ h)]
  unfold enum
  rw [h]
  dsimp only
  constructor
  · intro x
    rw [← hf]
    cases enumFind v l <;> simp [Res.ok, Res.bad]
  · intro hp
    rw [hn l hp]

/-- A value with two words is set by exactly those, and the first one is true even if they are the same. -/
theorem C90_boolv (st key tv fv : List UInt8) (b : Bool) :
    boolv false st key tv fv = .ok b false ↔
      ∃ v, value false st key = some v ∧ v ≠ [] ∧ ((b = true ∧ v = tv) ∨ (b = false ∧ v ≠ tv ∧ v = fv)) := by
  unfold boolv
  cases hv : value false st key with
  | none => simp [Res.no, Res.ok]
  | some v =>
    simp only [Option.some.injEq, exists_eq_left', List.isEmpty_iff, ne_eq]
    by_cases h0 : v = []
    · simp [h0, Res.bad, Res.ok]
    · by_cases h1 : v = tv
      · subst h1; cases b <;> simp [h0, Res.ok]
      · by_cases h2 : v = fv
        · subst h2; cases b <;> simp [h0, h1, Res.ok]
        · cases b <;> simp [h0, h1, h2, Res.bad, Res.ok]

/-- A mode is one octal digit, or the sum of the letters r, w and x, in any order and number; an empty text is 0. -/
theorem C90_mode (st key v : List UInt8) (m : Nat) (h : value false st key = some v) :
    mode false st key = .ok m false ↔
      (∃ c, v = [c] ∧ 48 ≤ c.toNat ∧ c.toNat ≤ 55 ∧ m = c.toNat - 48) ∨
      ((∀ c ∈ v, c = 114 ∨ c = 119 ∨ c = 120) ∧
        m = (if 114 ∈ v then 4 else 0) + (if 119 ∈ v then 2 else 0) + (if 120 ∈ v then 1 else 0)) := by
  have key : ∀ (l : List UInt8) (a : Nat), a < 8 → modeLoop a l =
      if (∀ c ∈ l, c = 114 ∨ c = 119 ∨ c = 120) then
        some (a ||| ((if 114 ∈ l then 4 else 0) + (if 119 ∈ l then 2 else 0) + (if 120 ∈ l then 1 else 0))) else none := by
    intro l
    induction l with
    | nil => intro a _; simp [modeLoop]
    | cons c l ih =>
      intro a ha
      have bits : ∀ n : Fin 8, ∀ p q r : Bool, ∀ k : Fin 3,
          (n.val ||| (if k.val = 0 then 4 else if k.val = 1 then 2 else 1)) < 8 ∧
          ((n.val ||| (if k.val = 0 then 4 else if k.val = 1 then 2 else 1)) |||
            ((if p then 4 else 0) + (if q then 2 else 0) + (if r then 1 else 0))) =
          (n.val ||| ((if k.val = 0 ∨ p then 4 else 0) + (if k.val = 1 ∨ q then 2 else 0) + (if k.val = 2 ∨ r then 1 else 0))) := by
        decide +kernel
      unfold modeLoop
      by_cases c1 : c = 114
      · subst c1
        have := bits ⟨a, ha⟩ (114 ∈ l) (119 ∈ l) (120 ∈ l) 0
        simp at this
        rw [if_pos rfl, ih _ this.1, this.2]
        simp
      · rw [if_neg c1]
        by_cases c2 : c = 119
        · subst c2
          have := bits ⟨a, ha⟩ (114 ∈ l) (119 ∈ l) (120 ∈ l) 1
          simp at this
          rw [if_pos rfl, ih _ this.1, this.2]
          simp
        · rw [if_neg c2]
          by_cases c3 : c = 120
          · subst c3
            have := bits ⟨a, ha⟩ (114 ∈ l) (119 ∈ l) (120 ∈ l) 2
            simp at this
            rw [if_pos rfl, ih _ this.1, this.2]
            simp
          · rw [if_neg c3]; simp [c1, c2, c3]
  unfold mode
  rw [h]
  dsimp only
  cases v with
  | nil => simp [Res.ok]; exact eq_comm
  | cons c l =>
    dsimp only
    by_cases d : (48 ≤ c && c ≤ 55) = true
    · rw [if_pos d]
      simp only [Bool.and_eq_true, decide_eq_true_eq, UInt8.le_iff_toNat_le] at d
      have d1 : 48 ≤ c.toNat := d.1
      have d2 : c.toNat ≤ 55 := d.2
      have nx : ¬ (∀ x ∈ c :: l, x = 114 ∨ x = 119 ∨ x = 120) := by
        intro a
        rcases a c (by simp) with rfl | rfl | rfl <;> simp at d2
      have hx : (∃ x, c :: l = [x] ∧ 48 ≤ x.toNat ∧ x.toNat ≤ 55 ∧ m = x.toNat - 48) ↔ (l = [] ∧ m = c.toNat - 48) := by
        constructor
        · rintro ⟨x, e, _, _, e2⟩
          simp only [List.cons.injEq] at e
          obtain ⟨rfl, rfl⟩ := e
          exact ⟨rfl, e2⟩
        · rintro ⟨rfl, e⟩; exact ⟨c, rfl, d1, d2, e⟩
      rw [hx]
      simp only [nx, false_and, or_false]
      cases l with
      | nil => simp [Res.ok]; exact eq_comm
      | cons => simp [Res.bad, Res.ok]
    · rw [if_neg d, key _ 0 (by omega)]
      have nd : ¬ ∃ x, c :: l = [x] ∧ 48 ≤ x.toNat ∧ x.toNat ≤ 55 ∧ m = x.toNat - 48 := by
        rintro ⟨x, e, a, b, _⟩
        simp only [List.cons.injEq] at e
        obtain ⟨rfl, rfl⟩ := e
        refine d ?_
        simp only [Bool.and_eq_true, decide_eq_true_eq, UInt8.le_iff_toNat_le]
        exact ⟨a, b⟩
      simp only [nd, false_or, Nat.zero_or]
      by_cases hh : ∀ x ∈ c :: l, x = 114 ∨ x = 119 ∨ x = 120
      · rw [if_pos hh]
        constructor
        · intro e; simp only [Res.ok, Res.mk.injEq, Option.some.injEq] at e; exact ⟨hh, e.2.1.symm⟩
        · intro e; rw [e.2]
      · rw [if_neg hh]
        constructor
        · intro e; simp [Res.bad, Res.ok] at e
        · intro e; exact absurd e.1 hh

/-- Two letters are the same for the functions above when they are the same letter, large or small. -/
theorem C90_letters (a b : UInt8) : toLower a = toLower b ↔
    a = b ∨ (65 ≤ a.toNat ∧ a.toNat ≤ 90 ∧ b.toNat = a.toNat + 32) ∨ (65 ≤ b.toNat ∧ b.toNat ≤ 90 ∧ a.toNat = b.toNat + 32) := by
  have := a.toNat_lt
  have := b.toNat_lt
  simp only [toLower, CLib.isUpper, ← UInt8.toNat_inj, apply_ite UInt8.toNat, UInt8.toNat_add, Bool.and_eq_true, decide_eq_true_eq,
    UInt8.le_iff_toNat_le, UInt8.reduceToNat]
  split <;> split <;> omega

/-! ## C88: numbers -/

/-- The digits of the bases up to 36. -/
theorem C88_digits (n : Nat) (h : n < 36) :
    digitVal ([48, 49, 50, 51, 52, 53, 54, 55, 56, 57, 97, 98, 99, 100, 101, 102, 103, 104, 105, 106, 107, 108, 109, 110, 111, 112, 113,
      114, 115, 116, 117, 118, 119, 120, 121, 122].getD n 0) = n ∧
    (10 ≤ n → digitVal (UInt8.ofNat (n + 55)) = n) := by
  have : ∀ n : Fin 36, digitVal ([48, 49, 50, 51, 52, 53, 54, 55, 56, 57, 97, 98, 99, 100, 101, 102, 103, 104, 105, 106, 107, 108, 109,
      110, 111, 112, 113, 114, 115, 116, 117, 118, 119, 120, 121, 122].getD n.val 0) = n.val ∧
      (10 ≤ n.val → digitVal (UInt8.ofNat (n.val + 55)) = n.val) := by decide +kernel
  exact this ⟨n, h⟩

private theorem empty_text {b : Nat} {neg : Bool} {m : Nat} : ¬ NumText b [] neg m := by
  rintro ⟨ws, sg, body, ds, e, _, _, hb, ne, a, _⟩
  obtain ⟨c, l, e2, _⟩ := hb.head ne a
  rw [e2] at e; simp at e

private theorem scan_whole {v : List UInt8} {b : Nat} {neg : Bool} {m : Nat} (h : NumText b v neg m) :
    scanNum 0 v = some (neg, m, []) := by
  have := scan_complete (r := []) h (by simp)
  simpa using this

private theorem scan_cases (v : List UInt8) :
    (∃ b neg m, NumText b v neg m ∧ scanNum 0 v = some (neg, m, [])) ∨
    ((¬ ∃ b neg m, NumText b v neg m) ∧ (scanNum 0 v = none ∨ ∃ neg m c r, scanNum 0 v = some (neg, m, c :: r))) := by
  by_cases h : ∃ b neg m, NumText b v neg m
  · obtain ⟨b, neg, m, h⟩ := h
    exact .inl ⟨b, neg, m, h, scan_whole h⟩
  · refine .inr ⟨h, ?_⟩
    cases e : scanNum 0 v with
    | none => exact .inl rfl
    | some x =>
      obtain ⟨neg, m, r⟩ := x
      cases r with
      | nil =>
        obtain ⟨b, t, e2, nt, _⟩ := scan_sound e
        rw [List.append_nil] at e2
        subst e2
        exact absurd ⟨b, neg, m, nt⟩ h
      | cons c r => exact .inr ⟨neg, m, c, r, rfl⟩

/-- `gensio_pparm_ds`: a number that fits is read as it is, and a text that is not a number gives a message.  Missing: negative
and large numbers, see below. -/
theorem C88_ds_partial (st key v : List UInt8) (h : value false st key = some v) :
    (∀ b m, NumText b v false m → m ≤ ulongMax → ds false st key = .ok m false) ∧
    ((¬ ∃ b neg m, NumText b v neg m) → ds false st key = .bad) := by
  unfold ds
  rw [h]
  dsimp only
  constructor
  · intro b m nt hm
    have hv : v.isEmpty = false := by
      cases v with
      | nil => exact absurd nt empty_text
      | cons => rfl
    rw [hv]
    simp only [strtoul, scan_whole nt, Bool.false_eq_true, if_false, List.isEmpty_nil, if_true]
    rw [if_neg (by omega)]
  · intro nt
    split
    · rfl
    · rename_i hv
      rcases scan_cases v with ⟨b, neg, m, x, _⟩ | ⟨_, e | ⟨neg, m, c, r, e⟩⟩
      · exact absurd ⟨b, neg, m, x⟩ nt
      · simp only [strtoul, e, hv]; rfl
      · simp only [strtoul, e]; rfl

/-- `gensio_pparm_uint`: the same with the range of `unsigned int`, and a number above it gives a message. -/
theorem C88_uint_partial (st key v : List UInt8) (h : value false st key = some v) :
    (∀ b m, NumText b v false m → m ≤ uintMax → uint false st key = .ok m false) ∧
    (∀ b m, NumText b v false m → m > uintMax → uint false st key = .bad) ∧
    ((¬ ∃ b neg m, NumText b v neg m) → uint false st key = .bad) := by
  have u1 : uintMax = 4294967295 := rfl
  have u2 : ulongMax = 18446744073709551615 := rfl
  have hv : ∀ b neg m, NumText b v neg m → v.isEmpty = false := by
    intro b neg m nt
    cases v with
    | nil => exact absurd nt empty_text
    | cons => rfl
  unfold uint
  rw [h]
  dsimp only
  refine ⟨fun b m nt hm => ?_, fun b m nt hm => ?_, fun nt => ?_⟩
  · rw [hv _ _ _ nt]
    simp only [strtoul, scan_whole nt, Bool.false_eq_true, if_false, List.isEmpty_nil, Bool.not_true]
    rw [if_neg (show ¬ m > ulongMax by omega), if_neg (show ¬ m > uintMax by omega)]
  · rw [hv _ _ _ nt]
    simp only [strtoul, scan_whole nt, Bool.false_eq_true, if_false, List.isEmpty_nil, Bool.not_true]
    rw [if_pos (by split <;> omega)]
  · split
    · rfl
    · rename_i hv
      rcases scan_cases v with ⟨b, neg, m, x, _⟩ | ⟨_, e | ⟨neg, m, c, r, e⟩⟩
      · exact absurd ⟨b, neg, m, x⟩ nt
      · simp only [strtoul, e, hv]; rfl
      · simp only [strtoul, e]; rfl

/-- `gensio_pparm_int`: numbers in the range of `int` are read as they are. -/
theorem C88_int_partial (st key v : List UInt8) (h : value false st key = some v) :
    (∀ b neg m, NumText b v neg m → m ≤ (if neg then intMax + 1 else intMax) →
      int false st key = .ok (if neg then -(m : Int) else m) false) ∧
    ((¬ ∃ b neg m, NumText b v neg m) → int false st key = .bad) := by
  have u1 : intMax = 2147483647 := rfl
  have u2 : longMax = 9223372036854775807 := rfl
  have u3 : uintMax = 4294967295 := rfl
  unfold int
  rw [h]
  dsimp only
  constructor
  · intro b neg m nt hm
    have hv : v.isEmpty = false := by
      cases v with
      | nil => exact absurd nt empty_text
      | cons => rfl
    rw [hv]
    simp only [strtol, scan_whole nt, Bool.false_eq_true, if_false, List.isEmpty_nil, Bool.not_true, Bool.false_or]
    have hs : sat neg m = if neg then -(m : Int) else m := by
      unfold sat
      cases neg
      · simp only [Bool.false_eq_true, if_false] at hm ⊢; rw [if_neg (by omega)]
      · simp only [if_true] at hm ⊢; rw [if_neg (by omega)]
    rw [hs]
    have h1 : toInt32 (if neg then -(m : Int) else m) = if neg then -(m : Int) else m := by
      unfold toInt32
      rw [u1, u3]
      rw [u1] at hm
      cases neg
      · simp only [Bool.false_eq_true, if_false] at hm ⊢; omega
      · simp only [if_true] at hm ⊢; omega
    rw [h1]
    congr 1
    cases neg
    · simp only [Bool.false_eq_true, if_false] at hm ⊢; simp; omega
    · simp only [if_true] at hm ⊢; simp; omega
  · intro nt
    split
    · rfl
    · rename_i hv
      rcases scan_cases v with ⟨b, neg, m, x, _⟩ | ⟨_, e | ⟨neg, m, c, r, e⟩⟩
      · exact absurd ⟨b, neg, m, x⟩ nt
      · simp only [strtol, e, hv]; rfl
      · simp only [strtol, e]; rfl

/-- Every negative size is accepted as a huge one. -/
theorem C88_negative_violated (st key v : List UInt8) (b m : Nat) (h : value false st key = some v) (nt : NumText b v true m)
    (h0 : 0 < m) (hm : m ≤ ulongMax) : ds false st key = .ok (ulongMax + 1 - m) false := by
  have u2 : ulongMax = 18446744073709551615 := rfl
  have hv : v.isEmpty = false := by
    cases v with
    | nil => exact absurd nt empty_text
    | cons => rfl
  unfold ds
  rw [h]
  simp only [hv, strtoul, scan_whole nt, Bool.false_eq_true, if_false, List.isEmpty_nil, if_true]
  rw [if_neg (by omega), Nat.mod_eq_of_lt (by omega)]

/-- Every size that is too large is accepted as `ULONG_MAX`. -/
theorem C88_large_violated (st key v : List UInt8) (b m : Nat) (neg : Bool) (h : value false st key = some v)
    (nt : NumText b v neg m) (hm : m > ulongMax) : ds false st key = .ok ulongMax false := by
  have hv : v.isEmpty = false := by
    cases v with
    | nil => exact absurd nt empty_text
    | cons => rfl
  unfold ds
  rw [h]
  simp only [hv, strtoul, scan_whole nt, Bool.false_eq_true, if_false, List.isEmpty_nil, if_true]
  rw [if_pos hm]

/-- `k=-18446744073709551615` is the unsigned number 1. -/
theorem C88_uint_violated : uint false
    [107, 61, 45, 49, 56, 52, 52, 54, 55, 52, 52, 48, 55, 51, 55, 48, 57, 53, 53, 49, 54, 49, 53] [107] = .ok 1 false := by
  decide +kernel

/-- Every number out of the range of `int` gives a message but is accepted with another value. -/
theorem C88_int_violated (st key v : List UInt8) (b m : Nat) (h : value false st key = some v) (nt : NumText b v false m)
    (hm : m > intMax) : (int false st key).rv = 1 ∧ (int false st key).err = true ∧
      ∃ z, (int false st key).val = some z ∧ z ≠ m := by
  have u1 : intMax = 2147483647 := rfl
  have u2 : longMax = 9223372036854775807 := rfl
  have u3 : uintMax = 4294967295 := rfl
  have hv : v.isEmpty = false := by
    cases v with
    | nil => exact absurd nt empty_text
    | cons => rfl
  unfold int
  rw [h]
  simp only [hv, strtol, scan_whole nt, Bool.false_eq_true, if_false, List.isEmpty_nil, Bool.not_true, Bool.false_or, Res.ok, true_and]
  have hs : sat false m > intMax := by
    unfold sat
    simp only [Bool.false_eq_true, if_false]
    split <;> omega
  refine ⟨by simp [hs], _, rfl, ?_⟩
  unfold toInt32
  rw [u1, u3]
  rw [u1] at hm hs
  have : sat false m ≤ m := by
    unfold sat
    simp only [Bool.false_eq_true, if_false]
    split <;> omega
  omega

/-- So `drain_timeout=4294967296` as the last parameter is accepted as 0, though a message was given; before another valid
parameter it is refused. -/
theorem C88_drain_violated :
    drainParms false 5 [drainKey ++ [61, 52, 50, 57, 52, 57, 54, 55, 50, 57, 54]] = some 0 ∧
    drainParms false 5 [drainKey ++ [61, 52, 50, 57, 52, 57, 54, 55, 50, 57, 54], drainKey ++ [61, 49]] = none := by
  decide +kernel

/-- The drain timeout is the last one that was given, if all parameters are numbers that fit. -/
theorem C88_drain_partial (cur : Int) (l : List (List UInt8 × Int))
    (h : ∀ p ∈ l, ∃ v b neg m, value false p.1 drainKey = some v ∧ NumText b v neg m ∧ m ≤ (if neg then intMax + 1 else intMax) ∧
      p.2 = if neg then -(m : Int) else m) :
    drainParms false cur (l.map (·.1)) = some ((cur :: l.map (·.2)).getLast (by simp)) := by
  induction l generalizing cur with
  | nil => rfl
  | cons p l ih =>
    obtain ⟨v, b, neg, m, hv, nt, hm, e⟩ := h p (by simp)
    have := (C88_int_partial p.1 drainKey v hv).1 b neg m nt hm
    simp only [List.map_cons, drainParms, this, ← e, Res.ok]
    rw [if_pos (by decide)]
    simp only [Option.getD_some]
    rw [ih p.2 fun q hq => h q (List.mem_cons_of_mem _ hq)]
    simp

/-- Permissions as an octal number are read as they are. -/
theorem C88_perm_partial (st key v : List UInt8) (h : value false st key = some v) (ne : v ≠ []) (a : v.all (isDig 8) = true)
    (hm : numVal 8 v ≤ uintMax) : perm false st key = .ok (numVal 8 v) false := by
  have u1 : uintMax = 4294967295 := rfl
  have u2 : ulongMax = 18446744073709551615 := rfl
  obtain ⟨c, l, rfl⟩ : ∃ c l, v = c :: l := by
    cases v with
    | nil => exact absurd rfl ne
    | cons c l => exact ⟨c, l, rfl⟩
  have hc : isDigit c = true := by
    simp only [List.all_cons, Bool.and_eq_true] at a
    exact dig10_bounds c (isDig_mono (by omega) a.1)
  have e : strtoul 8 (c :: l) = (numVal 8 (c :: l), []) := by
    have hs := sign_digit c l hc
    have d := dropWhile_append_stop (r := []) a (by simp)
    simp only [List.append_nil] at d
    simp only [strtoul, scanNum, hs, basePrefix, ne_eq, show ¬ (8 = 0) from by decide, not_false_eq_true, if_true, d.1, d.2]
    simp only [List.isEmpty_cons, Bool.false_eq_true, if_false]
    rw [if_neg (by omega)]
  unfold perm
  rw [h]
  simp only [e, List.isEmpty_nil, Bool.not_true, Bool.or_false]
  rw [if_neg (by simp), Nat.mod_eq_of_lt (by omega)]

/-- Permissions that are empty or that have something else than octal digits after a number are refused. -/
theorem C88_perm_bad (st key v : List UInt8) (h : value false st key = some v) (x : Nat) (e : perm false st key = .ok x false) :
    v ≠ [] ∧ ∃ ws sg ds, v = ws ++ sg ++ ds ∧ ws.all isSpace = true ∧ (sg = [] ∨ sg = [43] ∨ sg = [45]) ∧
      ds ≠ [] ∧ ds.all (isDig 8) = true := by
  unfold perm at e
  rw [h] at e
  dsimp only at e
  split at e
  · simp [Res.bad, Res.ok] at e
  · rename_i hn
    simp only [Bool.or_eq_true, decide_eq_true_eq, not_or, Bool.not_eq_true, Bool.not_eq_eq_eq_not, Bool.not_false] at hn
    obtain ⟨h1, h2⟩ := hn
    have h3 : (strtoul 8 v).2 = [] := by simpa using h2
    refine ⟨fun e0 => h1 (by rw [h3, e0]), ?_⟩
    unfold strtoul at h3 h1
    cases hs : scanNum 8 v with
    | none => rw [hs] at h1; exact absurd rfl h1
    | some y =>
      obtain ⟨neg, m, r⟩ := y
      rw [hs] at h3
      dsimp only at h3
      subst h3
      simp only [scanNum, basePrefix, ne_eq, show ¬ (8 = 0) from by decide, not_false_eq_true, if_true] at hs
      split at hs
      · cases hs
      · rename_i hne
        simp only [Option.some.injEq, Prod.mk.injEq] at hs
        have hd := hs.2.2
        have ht : (sign v).2.takeWhile (isDig 8) = (sign v).2 := by
          have := List.takeWhile_append_dropWhile (p := isDig 8) (l := (sign v).2)
          rw [hd, List.append_nil] at this
          exact this
        obtain ⟨ws, sg, e1, a1, k1⟩ := sign_spec v
        refine ⟨ws, sg, (sign v).2, e1, a1, ?_, fun e0 => hne (by rw [e0]; rfl), ?_⟩
        · rcases k1 with ⟨k, _⟩ | ⟨k, _⟩
          · rcases k with k | k <;> simp [k]
          · simp [k]
        rw [← ht]
        exact List.all_takeWhile

/-- Permissions that are too large are cut off: `p=40000000777` is 0777. -/
theorem C88_perm_violated : perm false [112, 61, 52, 48, 48, 48, 48, 48, 48, 48, 55, 55, 55] [112] = .ok 511 false := by decide +kernel

/-- A default value that is accepted is in its range, and a number in the range is accepted. -/
theorem C88_default_partial (min max : Int) (s : List UInt8) :
    (∀ v, setDefaultInt min max s = some v → min ≤ v ∧ v ≤ max) ∧
    (s ≠ [] → s.all (isDig 10) = true → numVal 10 s ≤ intMax → min ≤ numVal 10 s → (numVal 10 s : Int) ≤ max →
      setDefaultInt min max s = some (numVal 10 s : Int)) := by
  constructor
  · intro v h
    unfold setDefaultInt at h
    dsimp only at h
    split at h
    · cases h
    · split at h
      · cases h
      · rename_i hn
        simp only [Option.some.injEq] at h
        rw [h] at hn
        simp only [Bool.or_eq_true, decide_eq_true_eq, not_or, Int.not_lt] at hn
        omega
  · intro ne a hm h1 h2
    have u0 : intMax = 2147483647 := rfl
    have u2 : ulongMax = 18446744073709551615 := rfl
    obtain ⟨c, l, rfl⟩ : ∃ c l, s = c :: l := by
      cases s with
      | nil => exact absurd rfl ne
      | cons c l => exact ⟨c, l, rfl⟩
    have hc : isDigit c = true := by
      simp only [List.all_cons, Bool.and_eq_true] at a
      exact dig10_bounds c a.1
    have e : strtoul 10 (c :: l) = (numVal 10 (c :: l), []) := by
      have hs := sign_digit c l hc
      have d := dropWhile_append_stop (r := []) a (by simp)
      simp only [List.append_nil] at d
      simp only [strtoul, scanNum, hs, basePrefix, ne_eq, show ¬ (10 = 0) from by decide, not_false_eq_true, if_true, d.1, d.2]
      simp only [List.isEmpty_cons, Bool.false_eq_true, if_false]
      rw [if_neg (by omega)]
    unfold setDefaultInt
    simp only [e, List.isEmpty_nil, Bool.not_true, Bool.or_false]
    rw [if_neg (by simp)]
    have t : toInt32 (numVal 10 (c :: l)) = (numVal 10 (c :: l) : Int) := by
      have u1 : uintMax = 4294967295 := rfl
      unfold toInt32
      rw [u0, u1]
      omega
    rw [t, if_neg (by simp; omega)]

/-- A default value out of its range is accepted when it is in the range after it is cut to 32 bits. -/
theorem C88_default_violated : setDefaultInt 0 10 [52, 50, 57, 52, 57, 54, 55, 50, 57, 55] = some 1 := by decide +kernel

/-! ## C89: times -/

/-- The length of a unit in nanoseconds: days, hours, minutes, seconds, milliseconds, microseconds, nanoseconds. -/
def unitNs (u : UInt8) : Option Int :=
  if u = 68 then some 86400000000000
  else if u = 72 then some 3600000000000
  else if u = 77 then some 60000000000
  else if u = 115 then some 1000000000
  else if u = 109 then some 1000000
  else if u = 117 then some 1000
  else if u = 110 then some 1
  else none

/-- A time: numbers with units, all but the last of a second or more; the unit may be left out if there is one number and a
default unit.  Numbers that do not fit in 64 bits are cut off (`sat`). -/
inductive TimeText : UInt8 → List UInt8 → Int → Prop
  | bare {mod : UInt8} {t : List UInt8} {b : Nat} {neg : Bool} {m : Nat} {k : Int} :
      NumText b t neg m → unitNs mod = some k → TimeText mod t (sat neg m * k)
  | last {mod u : UInt8} {t : List UInt8} {b : Nat} {neg : Bool} {m : Nat} {k : Int} :
      NumText b t neg m → unitNs u = some k → TimeText mod (t ++ [u]) (sat neg m * k)
  | more {mod u : UInt8} {t rest : List UInt8} {b : Nat} {neg : Bool} {m : Nat} {k tot : Int} :
      NumText b t neg m → u = 68 ∨ u = 72 ∨ u = 77 ∨ u = 115 → unitNs u = some k → TimeText 0 rest tot →
      TimeText mod (t ++ u :: rest) (sat neg m * k + tot)

private theorem i64_eq {z x : Int} (h : i64 z = some x) : x = z := by
  unfold i64 at h; split at h <;> simp_all

private theorem bigUnit_eq {u : UInt8} {v x : Int} (h : bigUnit u v = some (some x)) :
    (u = 68 ∨ u = 72 ∨ u = 77 ∨ u = 115) ∧ ∃ k, unitNs u = some k ∧ x * nsecsInSec = v * k ∧ (0 ≤ v → 0 ≤ x) := by
  unfold bigUnit at h
  split at h
  · rename_i e; subst e
    simp only [Option.some.injEq, Option.bind_eq_some_iff] at h
    obtain ⟨y, h1, h2⟩ := h
    have h1 := i64_eq h1; have h2 := i64_eq h2
    subst h1; subst h2
    exact ⟨by simp, _, rfl, by simp only [nsecsInSec]; omega, by omega⟩
  · split at h
    · rename_i e; subst e
      simp only [Option.some.injEq] at h
      have h1 := i64_eq h
      subst h1
      exact ⟨by simp, _, rfl, by simp only [nsecsInSec]; omega, by omega⟩
    · split at h
      · rename_i e; subst e
        simp only [Option.some.injEq] at h
        have h1 := i64_eq h
        subst h1
        exact ⟨by simp, _, rfl, by simp only [nsecsInSec]; omega, by omega⟩
      · split at h
        · rename_i e; subst e
          simp only [Option.some.injEq] at h
          subst h
          exact ⟨by simp, _, rfl, by simp only [nsecsInSec], id⟩
        · cases h

private theorem smallUnit_eq {u : UInt8} {v x : Int} (h : smallUnit u v = some (some x)) :
    ∃ k, unitNs u = some k ∧ x = v * k ∧ (0 ≤ v → 0 ≤ x) := by
  unfold smallUnit at h
  split at h
  · rename_i e; subst e
    simp only [Option.some.injEq] at h
    have h1 := i64_eq h
    subst h1
    exact ⟨_, rfl, rfl, by omega⟩
  · split at h
    · rename_i e; subst e
      simp only [Option.some.injEq] at h
      have h1 := i64_eq h
      subst h1
      exact ⟨_, rfl, rfl, by omega⟩
    · split at h
      · rename_i e; subst e
        simp only [Option.some.injEq] at h
        subst h
        exact ⟨1, rfl, by omega, id⟩
      · cases h

private theorem timeDone_eq {secs x s n : Int} {r : List UInt8} (h : timeDone secs x r = .ok s n) :
    r = [] ∧ s * nsecsInSec + n = secs * nsecsInSec + x ∧ -nsecsInSec < n ∧ n < nsecsInSec ∧ (0 ≤ x → 0 ≤ n ∧ secs ≤ s) := by
  unfold timeDone at h
  split at h
  · cases h
  · rename_i y hy
    have hy := i64_eq hy
    subst hy
    split at h
    · rename_i hr
      simp only [TRes.ok.injEq] at h
      obtain ⟨rfl, rfl⟩ := h
      have e := Int.mul_tdiv_add_tmod x nsecsInSec
      have hp : (0 : Int) < nsecsInSec := by decide
      refine ⟨by simpa using hr, ?_, ?_, Int.tmod_lt_of_pos _ hp, fun hx => ⟨Int.tmod_nonneg _ hx, ?_⟩⟩
      · rw [Int.add_mul]
        have : x.tdiv nsecsInSec * nsecsInSec = nsecsInSec * x.tdiv nsecsInSec := Int.mul_comm _ _
        omega
      · exact Int.lt_tmod_of_pos _ hp
      · have := Int.tdiv_nonneg hx (Int.le_of_lt hp); omega
    · cases h

private theorem loop_sound : ∀ (n : Nat) (secs0 : Int) (mod : UInt8) (s : List UInt8) (secs ns : Int),
    timeLoop n secs0 mod s = .ok secs ns → ∃ tot, TimeText mod s tot ∧ secs * nsecsInSec + ns = secs0 * nsecsInSec + tot ∧
      -nsecsInSec < ns ∧ ns < nsecsInSec ∧ (45 ∉ s → 0 ≤ ns ∧ secs0 ≤ secs)
  | 0, _, _, _, _, _, h => by simp [timeLoop] at h
  | n + 1, secs0, mod, s, secs, ns, h => by
    unfold timeLoop at h
    split at h
    · cases h
    · rename_i neg m r e
      obtain ⟨b, t, rfl, nt, _⟩ := scan_sound e
      have pos : 45 ∉ t → 0 ≤ sat neg m := by
        intro hn
        obtain ⟨ws, sg, body, ds, rfl, _, k, _⟩ := nt
        rcases k with ⟨_, rfl⟩ | ⟨rfl, _⟩
        · simp only [sat, Bool.false_eq_true, if_false]; split <;> omega
        · simp at hn
      dsimp only at h
      cases r with
      | nil =>
        simp only [List.headD_nil, List.tail_nil, List.isEmpty_nil, if_true, List.append_nil] at h ⊢
        split at h
        · cases h
        · rename_i x hx
          obtain ⟨hu, k, hk, hx', px⟩ := bigUnit_eq hx
          split at h
          · cases h
          · rename_i y hy
            have hy := i64_eq hy
            subst hy
            obtain ⟨_, e1, b1, b2, p1⟩ := timeDone_eq h
            refine ⟨_, .bare nt hk, ?_, b1, b2, fun hn => ?_⟩
            · rw [Int.add_mul] at e1; omega
            · have := px (pos hn); have := p1 (by omega); omega
        · split at h
          · cases h
          · rename_i x hx
            obtain ⟨k, hk, hx', px⟩ := smallUnit_eq hx
            obtain ⟨_, e1, b1, b2, p1⟩ := timeDone_eq h
            refine ⟨_, .bare nt hk, by omega, b1, b2, fun hn => ?_⟩
            exact p1 (px (pos hn))
          · cases h
      | cons u r =>
        simp only [List.headD_cons, List.tail_cons] at h
        have posu : 45 ∉ t ++ u :: r → 0 ≤ sat neg m := fun hn => pos (fun a => hn (List.mem_append_left _ a))
        split at h
        · cases h
        · rename_i x hx
          obtain ⟨hu, k, hk, hx', px⟩ := bigUnit_eq hx
          split at h
          · cases h
          · rename_i y hy
            have hy := i64_eq hy
            subst hy
            by_cases hr : r = []
            · subst hr
              simp only [List.isEmpty_nil, if_true] at h
              obtain ⟨_, e1, b1, b2, p1⟩ := timeDone_eq h
              refine ⟨_, .last nt hk, ?_, b1, b2, fun hn => ?_⟩
              · rw [Int.add_mul] at e1; omega
              · have := px (posu hn); have := p1 (by omega); omega
            · simp only [List.isEmpty_iff, hr, if_false] at h
              obtain ⟨tot, tt, e1, b1, b2, p1⟩ := loop_sound n _ 0 r secs ns h
              refine ⟨_, .more nt hu hk tt, ?_, b1, b2, fun hn => ?_⟩
              · rw [Int.add_mul] at e1; omega
              · have := px (posu hn)
                have := p1 (fun a => hn (List.mem_append_right _ (List.mem_cons_of_mem _ a)))
                omega
        · split at h
          · cases h
          · rename_i x hx
            obtain ⟨k, hk, hx', px⟩ := smallUnit_eq hx
            obtain ⟨rfl, e1, b1, b2, p1⟩ := timeDone_eq h
            refine ⟨_, .last nt hk, by omega, b1, b2, fun hn => ?_⟩
            exact p1 (px (posu hn))
          · cases h

/-- An accepted text is a time, and the result is its length; without a minus sign the result is a proper time.  Missing:
negative times (see below) and numbers that do not fit. -/
theorem C89_sound_partial (s : List UInt8) (mod : UInt8) (secs ns : Int) (h : strToTime s mod = .ok secs ns) :
    ∃ tot, TimeText mod s tot ∧ secs * nsecsInSec + ns = tot ∧ (45 ∉ s → 0 ≤ secs ∧ 0 ≤ ns ∧ ns < nsecsInSec) := by
  obtain ⟨tot, tt, e, b1, b2, p⟩ := loop_sound _ _ _ _ _ _ h
  refine ⟨tot, tt, by omega, fun hn => ?_⟩
  have := p hn
  omega

/-- The parameter of a time stores a time of its text. -/
theorem C89_time_partial (st key : List UInt8) (mod : UInt8) (x : Int × Int) (h : time false st key mod = some (.ok x false)) :
    ∃ v, value false st key = some v ∧ TimeText mod v (x.1 * nsecsInSec + x.2) := by
  unfold time at h
  split at h
  · simp [Res.no, Res.ok] at h
  · rename_i v hv
    split at h
    · cases h
    · simp [Res.bad, Res.ok] at h
    · rename_i s n hs
      simp only [Res.ok, Option.some.injEq, Res.mk.injEq, true_and, and_true] at h
      obtain ⟨tot, tt, e, _⟩ := C89_sound_partial _ _ _ _ hs
      subst h
      exact ⟨v, hv, by rw [e]; exact tt⟩

/-- Text of numbers with big units, and perhaps a last number with a small unit. -/
def timeText (l : List (Nat × UInt8)) (last : Option (Nat × UInt8)) : List UInt8 :=
  l.flatMap (fun p => dec p.1 ++ [p.2]) ++ (match last with
    | some p => dec p.1 ++ [p.2]
    | none => [])

/-- Seconds of a big unit. -/
def bigSecs (u : UInt8) : Option Nat :=
  if u = 68 then some 86400 else if u = 72 then some 3600 else if u = 77 then some 60 else if u = 115 then some 1 else none
/-- Nanoseconds of a small unit. -/
def smallNs (u : UInt8) : Option Nat :=
  if u = 109 then some 1000000 else if u = 117 then some 1000 else if u = 110 then some 1 else none
/-- Seconds of the numbers with big units. -/
def bigPart : List (Nat × UInt8) → Option Nat
  | [] => some 0
  | p :: l => ((bigSecs p.2).map (p.1 * ·)).bind fun x => (bigPart l).map (x + ·)
/-- Nanoseconds of the number with a small unit. -/
def smallPart : Option (Nat × UInt8) → Option Nat
  | some p => (smallNs p.2).map (p.1 * ·)
  | none => some 0

private theorem unit_not_dig : ∀ u : UInt8, (bigSecs u).isSome = true ∨ (smallNs u).isSome = true →
    isDig 10 u = false ∧ u ≠ 120 ∧ u ≠ 88 := by
  have : ∀ n : Fin 256, (bigSecs (UInt8.ofNat n.val)).isSome = true ∨ (smallNs (UInt8.ofNat n.val)).isSome = true →
    isDig 10 (UInt8.ofNat n.val) = false ∧ UInt8.ofNat n.val ≠ 120 ∧ UInt8.ofNat n.val ≠ 88 := by decide +kernel
  intro c h
  have := this ⟨c.toNat, c.toNat_lt⟩
  simpa [h] using this

private theorem i64_some {z : Int} (h0 : 0 ≤ z) (h : z ≤ longMax) : i64 z = some z := by
  unfold i64
  rw [if_pos ⟨by omega, h⟩]

private theorem scan_item {n : Nat} {u : UInt8} {r : List UInt8} (hn : n ≤ longMax)
    (hu : (bigSecs u).isSome = true ∨ (smallNs u).isSome = true) :
    scanNum 0 (dec n ++ u :: r) = some (false, n, u :: r) ∧ sat false n = n := by
  obtain ⟨b, hb, nt⟩ := dec_text n
  refine ⟨scan_complete nt ?_, by simp only [sat, Bool.false_eq_true, if_false]; rw [if_neg (by omega)]⟩
  intro c hc
  simp only [List.head?_cons, Option.mem_some_iff] at hc
  subst hc
  obtain ⟨h1, h2⟩ := unit_not_dig u hu
  refine ⟨?_, h2⟩
  simp only [isDig, decide_eq_false_iff_not] at h1 ⊢; omega

private theorem loop_complete : ∀ (l : List (Nat × UInt8)) (last : Option (Nat × UInt8)) (n : Nat) (secs0 : Nat) (mod : UInt8),
    (timeText l last).length < n → timeText l last ≠ [] →
    ∀ (big : Nat) (small : Nat),
    bigPart l = some big →
    smallPart last = some small →
    secs0 + big + small / 1000000000 ≤ longMax → small ≤ longMax →
    timeLoop n secs0 mod (timeText l last) = .ok (secs0 + big + small / 1000000000 : Nat) (small % 1000000000 : Nat)
  | [], none, n, secs0, mod, hn, ne, big, small, hb, hs, h1, h2 => by simp [timeText] at ne
  | [], some (x, u), n, secs0, mod, hn, ne, big, small, hb, hs, h1, h2 => by
    cases n with
    | zero => omega
    | succ n =>
      simp only [bigPart, Option.some.injEq] at hb
      subst hb
      simp only [smallPart] at hs
      obtain ⟨k, hk, e⟩ := Option.map_eq_some_iff.1 hs
      have kp : 0 < k := by
        unfold smallNs at hk
        repeat' split at hk
        all_goals simp at hk; try omega
      have hx : x ≤ longMax := by
        have : x * 1 ≤ x * k := Nat.mul_le_mul_left _ kp
        omega
      obtain ⟨sc, st⟩ := scan_item (r := []) hx (.inr (by rw [hk]; rfl))
      have tt : timeText [] (some (x, u)) = dec x ++ [u] := by simp [timeText]
      rw [tt]
      unfold timeLoop
      rw [sc]
      simp only [st, List.headD_cons, List.tail_cons]
      have hbu : bigUnit u x = none := by
        unfold smallNs at hk
        unfold bigUnit
        repeat' split at hk
        all_goals first
          | (simp at hk; done)
          | (rename_i e; subst e; simp)
          | skip
        all_goals simp at hk
      have hsu : smallUnit u x = some (some (small : Int)) := by
        subst e
        unfold smallNs at hk
        unfold smallUnit
        repeat' split at hk
        all_goals first
          | (simp at hk; done)
          | skip
        · rename_i e; subst e
          simp only [Option.some.injEq] at hk
          subst hk
          simp only [if_true]
          rw [i64_some (by omega) (by omega)]
          simp
        · rename_i e; subst e
          simp only [Option.some.injEq] at hk
          subst hk
          rw [if_neg (by decide), if_pos rfl, i64_some (by omega) (by omega)]
          simp
        · rename_i e; subst e
          simp only [Option.some.injEq] at hk
          subst hk
          rw [if_neg (by decide), if_neg (by decide), if_pos rfl]
          simp
      rw [hbu, hsu]
      dsimp only
      unfold timeDone
      have d1 : (small : Int).tdiv nsecsInSec = (small / 1000000000 : Nat) := by
        rw [Int.tdiv_eq_ediv_of_nonneg (by omega)]; simp [nsecsInSec]
      have d2 : (small : Int).tmod nsecsInSec = (small % 1000000000 : Nat) := by
        rw [Int.tmod_eq_emod_of_nonneg (by omega)]; simp [nsecsInSec]
      rw [d1, d2, i64_some (by omega) (by omega)]
      simp
  | (x, u) :: l, last, n, secs0, mod, hn, ne, big, small, hb, hs, h1, h2 => by
    cases n with
    | zero => omega
    | succ n =>
      simp only [bigPart] at hb
      obtain ⟨a, ha, hb⟩ := Option.bind_eq_some_iff.1 hb
      obtain ⟨k, hk, e⟩ := Option.map_eq_some_iff.1 ha
      obtain ⟨big', hb', e2⟩ := Option.map_eq_some_iff.1 hb
      subst e2
      have kp : 0 < k := by
        unfold bigSecs at hk
        repeat' split at hk
        all_goals simp at hk; try omega
      have hx : x ≤ longMax := by
        have : x * 1 ≤ x * k := Nat.mul_le_mul_left _ kp
        omega
      have tt : timeText ((x, u) :: l) last = dec x ++ u :: timeText l last := by
        simp [timeText, List.append_assoc]
      rw [tt] at hn ⊢
      obtain ⟨sc, st⟩ := scan_item (r := timeText l last) hx (.inl (by rw [hk]; rfl))
      unfold timeLoop
      rw [sc]
      simp only [st, List.headD_cons, List.tail_cons]
      have hbu : bigUnit u x = some (some (a : Int)) := by
        subst e
        unfold bigSecs at hk
        unfold bigUnit
        repeat' split at hk
        all_goals first
          | (simp at hk; done)
          | skip
        · rename_i e; subst e
          simp only [Option.some.injEq] at hk
          subst hk
          simp only [if_true]
          rw [i64_some (by omega) (by omega), Option.bind_some, i64_some (by omega) (by omega)]
          simp [Int.mul_assoc]
        · rename_i e; subst e
          simp only [Option.some.injEq] at hk
          subst hk
          rw [if_neg (by decide), if_pos rfl, i64_some (by omega) (by omega)]
          simp
        · rename_i e; subst e
          simp only [Option.some.injEq] at hk
          subst hk
          rw [if_neg (by decide), if_neg (by decide), if_pos rfl, i64_some (by omega) (by omega)]
          simp
        · rename_i e; subst e
          simp only [Option.some.injEq] at hk
          subst hk
          rw [if_neg (by decide), if_neg (by decide), if_neg (by decide), if_pos rfl]
          simp
      rw [hbu]
      dsimp only
      rw [i64_some (by omega) (by omega)]
      dsimp only
      by_cases em : timeText l last = []
      · have l0 : l = [] := by
          cases l with
          | nil => rfl
          | cons p l => simp [timeText] at em
        subst l0
        have la : last = none := by
          cases last with
          | none => rfl
          | some p => simp [timeText] at em
        subst la
        simp only [bigPart, Option.some.injEq] at hb'
        simp only [smallPart, Option.some.injEq] at hs
        subst hb'; subst hs
        rw [em]
        simp only [List.isEmpty_nil, if_true, timeDone]
        rw [show (0 : Int).tdiv nsecsInSec = 0 from by decide, show (0 : Int).tmod nsecsInSec = 0 from by decide]
        rw [i64_some (by omega) (by omega)]
        simp
      · simp only [List.isEmpty_iff, em, if_false]
        have := loop_complete l last n (secs0 + a) 0 (by simp at hn; omega) em big' small hb' hs (by omega) h2
        rw [show ((secs0 : Int) + a) = ((secs0 + a : Nat) : Int) from by omega, this]
        congr 1
        omega

/-- Decimal numbers with units, in any order, each unit any number of times, are read as their sum if it fits: here without a
small unit or with one at the end. -/
theorem C89_complete_partial (l : List (Nat × UInt8)) (last : Option (Nat × UInt8)) (mod : UInt8) (big small : Nat)
    (ne : timeText l last ≠ [])
    (hb : bigPart l = some big)
    (hs : smallPart last = some small)
    (h1 : big + small / 1000000000 ≤ longMax) (h2 : small ≤ longMax) :
    strToTime (timeText l last) mod = .ok (big + small / 1000000000 : Nat) (small % 1000000000 : Nat) := by
  have := loop_complete l last (( timeText l last).length + 1) 0 mod (by omega) ne big small hb hs (by omega) h2
  simpa [strToTime] using this

/-- Negative milliseconds give negative nanoseconds: `-5m`, and `1s-5m`. -/
theorem C89_negative_violated : strToTime [45, 53, 109] 0 = .ok 0 (-5000000) ∧ strToTime [49, 115, 45, 53, 109] 0 = .ok 1 (-5000000) := by
  decide +kernel

/-- Large numbers overflow: `106751991167301D`. -/
theorem C89_overflow_violated : strToTime [49, 48, 54, 55, 53, 49, 57, 57, 49, 49, 54, 55, 51, 48, 49, 68] 0 = .ub := by decide +kernel

/-- Numbers beyond 64 bits are accepted as another number: `99999999999999999999s`. -/
theorem C89_large_violated : strToTime [57, 57, 57, 57, 57, 57, 57, 57, 57, 57, 57, 57, 57, 57, 57, 57, 57, 57, 57, 57, 115] 0 =
    .ok 9223372036854775807 0 := by decide +kernel

/-! ## C91: addresses -/

/-- An address that is stored has not been freed. -/
theorem C91_addrs_partial (st key : List UInt8) (err req : Bool) (ai : Addr) (p q : Bool) (h : req = false ∨ q = true)
    (hf : ai.freed = false) (x : Addr) (e : (addrs err st key req (some (ai, p, q))).val = some x) : x = ai ∧ x.freed = false ∧ p = true := by
  unfold addrs at e
  split at e
  · simp [Res.no] at e
  · split at e
    · simp [Res.bad] at e
    · dsimp only at e
      rw [if_neg (by rcases h with h | h <;> simp [h])] at e
      cases p
      · simp [Res.bad] at e
      · simp [Res.ok] at e; subst e; exact ⟨rfl, hf, rfl⟩

/-- Whenever a port is required and the text has none, 1 is returned with an address that was freed. -/
theorem C91_addrs_violated (st key v : List UInt8) (ai : Addr) (p : Bool) (h : value false st key = some v) (hv : v ≠ []) :
    (addrs false st key true (some (ai, p, false))).rv = 1 ∧
    ∃ x, (addrs false st key true (some (ai, p, false))).val = some x ∧ x.freed = true := by
  unfold addrs
  rw [h]
  simp [hv, Res.ok]

/-! ## Examples -/

/-- `Key=0x1F` with the key `kEY`. -/
example : ds false [75, 101, 121, 61, 48, 120, 49, 70] [107, 69, 89] = .ok 31 false := by decide +kernel
/-- Not a number, and another key. -/
example : ds false [107, 61, 49, 120] [107] = .bad ∧ ds false [107, 107, 61, 49] [107] = .no false := by decide +kernel
/-- `int` with a sign, and an octal number. -/
example : int false [107, 61, 45, 49, 48] [107] = .ok (-10) false ∧ uint false [107, 61, 48, 49, 48] [107] = .ok 8 false := by
  decide +kernel
/-- `k=1D2H3M4s5m`. -/
example : strToTime [49, 68, 50, 72, 51, 77, 52, 115, 53, 109] 0 = .ok 93784 5000000 := by decide +kernel
example : timeText [(1, 68), (2, 72), (3, 77), (4, 115)] (some (5, 109)) = [49, 68, 50, 72, 51, 77, 52, 115, 53, 109] := by decide +kernel
/-- `1500` with the default unit of milliseconds, without a default unit, and with the wrong order of units. -/
example : strToTime [49, 53, 48, 48] 109 = .ok 1 500000000 ∧ strToTime [49, 53, 48, 48] 0 = .bad (-1) ∧
    strToTime [53, 109, 49, 115] 0 = .bad 3 := by decide +kernel
/-- `m=rw`, `m=5`, `m=57`. -/
example : mode false [109, 61, 114, 119] [109] = .ok 6 false ∧ mode false [109, 61, 53] [109] = .ok 5 false ∧
    mode false [109, 61, 53, 55] [109] = .bad := by decide +kernel
/-- `p=`: nothing, and a default of 11 when 10 is the largest. -/
example : perm false [112, 61] [112] = .bad ∧ setDefaultInt 0 10 [49, 49] = none ∧ setDefaultInt 0 10 [49, 48] = some 10 := by decide +kernel
/-- `p=0644`. -/
example : perm false [112, 61, 48, 54, 52, 52] [112] = .ok 420 false := by decide +kernel
example : bool false [98] [66] = .ok true false ∧ bool false [98, 61, 110, 111] [98] = .ok false false ∧
    bool false [98, 61, 120] [98] = .bad := by decide +kernel
/-- An enum value. -/
example : enum false [101, 61, 98] [101] [([97], 7), ([66], 8)] = .ok 8 false ∧ enum false [101, 61, 99] [101] [([97], 7)] = .bad := by
  decide +kernel

end Gensio.Pparm
