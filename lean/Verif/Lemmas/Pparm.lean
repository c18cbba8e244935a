import Verif.Model.Pparm
import Verif.Lemmas.CLib

/-! Lemmas for `Verif.Props.Pparm`. -/
namespace Gensio.Pparm
open CLib

/-- Digits in one of the three notations of C: decimal without a leading zero, octal with one, hexadecimal after `0x`. -/
def Body (b : Nat) (body ds : List UInt8) : Prop :=
  (b = 10 ∧ body = ds ∧ ds.head? ≠ some 48) ∨ (b = 8 ∧ body = ds ∧ ds.head? = some 48) ∨
  (b = 16 ∧ ∃ x, (x = 120 ∨ x = 88) ∧ body = 48 :: x :: ds)

/-- A number in base `b` with its sign and magnitude: spaces, an optional sign, and the digits. -/
def NumText (b : Nat) (t : List UInt8) (neg : Bool) (m : Nat) : Prop :=
  ∃ ws sg body ds, t = ws ++ sg ++ body ∧ ws.all isSpace = true ∧
    (((sg = [] ∨ sg = [43]) ∧ neg = false) ∨ (sg = [45] ∧ neg = true)) ∧ Body b body ds ∧ ds ≠ [] ∧
    ds.all (isDig b) = true ∧ m = numVal b ds

theorem sign_spec (s : List UInt8) : ∃ ws sg, s = ws ++ sg ++ (sign s).2 ∧ ws.all isSpace = true ∧
    (((sg = [] ∨ sg = [43]) ∧ (sign s).1 = false) ∨ (sg = [45] ∧ (sign s).1 = true)) := by
  have e : s.takeWhile isSpace ++ s.dropWhile isSpace = s := List.takeWhile_append_dropWhile
  have a : (s.takeWhile isSpace).all isSpace = true := List.all_takeWhile
  unfold sign
  split
  · rename_i r h
    exact ⟨_, [45], by rw [h] at e; simpa using e.symm, a, .inr ⟨rfl, rfl⟩⟩
  · rename_i r h
    exact ⟨_, [43], by rw [h] at e; simpa using e.symm, a, .inl ⟨.inr rfl, rfl⟩⟩
  · exact ⟨_, [], by simpa using e.symm, a, .inl ⟨.inl rfl, rfl⟩⟩

theorem basePrefix_spec (s : List UInt8) : ∃ pre, s = pre ++ (basePrefix 0 s).2 ∧
    (((basePrefix 0 s).1 = 10 ∧ pre = [] ∧ s.head? ≠ some 48) ∨ ((basePrefix 0 s).1 = 8 ∧ pre = [] ∧ s.head? = some 48) ∨
    ((basePrefix 0 s).1 = 16 ∧ ∃ x, (x = 120 ∨ x = 88) ∧ pre = [48, x])) := by
  unfold basePrefix
  rw [if_neg (by simp)]
  split
  · rename_i x d r
    split
    · rename_i h
      simp only [Bool.and_eq_true, Bool.or_eq_true, decide_eq_true_eq] at h
      exact ⟨[48, x], rfl, .inr (.inr ⟨rfl, x, h.1, rfl⟩)⟩
    · exact ⟨[], rfl, .inr (.inl ⟨rfl, rfl, rfl⟩)⟩
  · exact ⟨[], rfl, .inr (.inl ⟨rfl, rfl, rfl⟩)⟩
  · rename_i h1 h2
    refine ⟨[], rfl, .inl ⟨rfl, rfl, fun h => ?_⟩⟩
    cases s with
    | nil => simp at h
    | cons c l => simp only [List.head?_cons, Option.some.injEq] at h; exact h2 l (by rw [h])

/-- The digits of a number are its longest ones, so the rest does not go on with a digit. -/
theorem scan_sound {s r : List UInt8} {neg : Bool} {m : Nat} (h : scanNum 0 s = some (neg, m, r)) :
    ∃ b t, s = t ++ r ∧ NumText b t neg m ∧ t ≠ [] ∧ ∀ c ∈ r.head?, isDig b c = false := by
  unfold scanNum at h
  dsimp only at h
  obtain ⟨ws, sg, e1, a1, k1⟩ := sign_spec s
  obtain ⟨pre, e2, k2⟩ := basePrefix_spec (sign s).2
  generalize hg : sign s = g at *
  generalize hp : basePrefix 0 g.2 = p at *
  split at h
  · cases h
  · rename_i ne
    simp only [Option.some.injEq, Prod.mk.injEq] at h
    obtain ⟨rfl, rfl, rfl⟩ := h
    have e3 : p.2.takeWhile (isDig p.1) ++ p.2.dropWhile (isDig p.1) = p.2 := List.takeWhile_append_dropWhile
    have ne' : p.2.takeWhile (isDig p.1) ≠ [] := by simpa using ne
    refine ⟨p.1, ws ++ sg ++ (pre ++ p.2.takeWhile (isDig p.1)), ?_, ?_, ?_, ?_⟩
    · rw [List.append_assoc, List.append_assoc pre, e3, ← e2]; exact e1
    · refine ⟨ws, sg, _, p.2.takeWhile (isDig p.1), rfl, a1, k1, ?_, ne', List.all_takeWhile, rfl⟩
      have hd : pre = [] → (p.2.takeWhile (isDig p.1)).head? = g.2.head? := by
        intro e
        rw [e2, e, List.nil_append]
        cases hh : p.2.takeWhile (isDig p.1) with
        | nil => exact absurd hh ne'
        | cons c l => have := e3; rw [hh] at this; rw [← this]; rfl
      rcases k2 with ⟨b, q, f⟩ | ⟨b, q, f⟩ | ⟨b, x, hx, q⟩
      · refine .inl ⟨b, by rw [q]; rfl, ?_⟩
        rw [hd q]; exact f
      · refine .inr (.inl ⟨b, by rw [q]; rfl, ?_⟩)
        rw [hd q]; exact f
      · exact .inr (.inr ⟨b, x, hx, by rw [q]; rfl⟩)
    · simp [ne']
    · intro c hc
      have := List.head?_dropWhile_not (isDig p.1) p.2
      cases hh : (p.2.dropWhile (isDig p.1)).head? with
      | none => rw [hh] at hc; simp at hc
      | some c' =>
        rw [hh] at hc this
        simp only [Option.mem_some_iff] at hc
        subst hc
        simpa using this

theorem dropWhile_append_stop {p : UInt8 → Bool} : ∀ {l r : List UInt8}, l.all p = true → (∀ c ∈ r.head?, p c = false) →
    (l ++ r).dropWhile p = r ∧ (l ++ r).takeWhile p = l
  | [], r, _, h => by
    cases r with
    | nil => simp
    | cons c r => have := h c (by simp); simp [this]
  | c :: l, r, a, h => by
    simp only [List.all_cons, Bool.and_eq_true] at a
    have := dropWhile_append_stop (l := l) a.2 h
    simp [a.1, this]

theorem dig10_bounds : ∀ c : UInt8, isDig 10 c = true → isDigit c = true := by
  have : ∀ n : Fin 256, isDig 10 (UInt8.ofNat n.val) = true → isDigit (UInt8.ofNat n.val) = true := by decide +kernel
  intro c h
  have := this ⟨c.toNat, c.toNat_lt⟩
  simpa [h] using this

theorem digit_not : ∀ c : UInt8, isDigit c = true → isSpace c = false ∧ c ≠ 45 ∧ c ≠ 43 ∧ c ≠ 120 ∧ c ≠ 88 := by
  have : ∀ n : Fin 256, isDigit (UInt8.ofNat n.val) = true → isSpace (UInt8.ofNat n.val) = false ∧ UInt8.ofNat n.val ≠ 45 ∧
    UInt8.ofNat n.val ≠ 43 ∧ UInt8.ofNat n.val ≠ 120 ∧ UInt8.ofNat n.val ≠ 88 := by decide +kernel
  intro c h
  have := this ⟨c.toNat, c.toNat_lt⟩
  simpa [h] using this

theorem isDig_mono {a b : Nat} {c : UInt8} (h : a ≤ b) (hc : isDig a c = true) : isDig b c = true := by
  simp only [isDig, decide_eq_true_eq] at *; omega

/-- The text starts with a digit. -/
theorem Body.head {b : Nat} {body ds : List UInt8} (h : Body b body ds) (ne : ds ≠ []) (a : ds.all (isDig b) = true) :
    ∃ c l, body = c :: l ∧ isDigit c = true := by
  cases ds with
  | nil => exact absurd rfl ne
  | cons c l =>
    simp only [List.all_cons, Bool.and_eq_true] at a
    rcases h with ⟨rfl, rfl, _⟩ | ⟨rfl, rfl, _⟩ | ⟨rfl, x, _, rfl⟩
    · exact ⟨c, l, rfl, dig10_bounds c a.1⟩
    · exact ⟨c, l, rfl, dig10_bounds c (isDig_mono (by omega) a.1)⟩
    · exact ⟨48, _, rfl, by decide⟩

theorem sign_append {ws sg q : List UInt8} {neg : Bool} (a : ws.all isSpace = true)
    (k : ((sg = [] ∨ sg = [43]) ∧ neg = false) ∨ (sg = [45] ∧ neg = true)) (hq : ∃ c l, q = c :: l ∧ isDigit c = true) :
    sign (ws ++ sg ++ q) = (neg, q) := by
  obtain ⟨c, l, rfl, hc⟩ := hq
  obtain ⟨n1, n2, n3, _⟩ := digit_not c hc
  unfold sign
  rw [List.append_assoc]
  rcases k with ⟨rfl | rfl, rfl⟩ | ⟨rfl, rfl⟩
  · rw [(dropWhile_append_stop a (by simpa using n1)).1]
    simp only [List.nil_append]
    split
    · rename_i h; simp only [List.cons.injEq] at h; exact absurd h.1 n2
    · rename_i h; simp only [List.cons.injEq] at h; exact absurd h.1 n3
    · rfl
  · rw [(dropWhile_append_stop a (by simp; decide)).1]; rfl
  · rw [(dropWhile_append_stop a (by simp; decide)).1]; rfl

theorem basePrefix_body {b : Nat} {body ds r : List UInt8} (h : Body b body ds) (ne : ds ≠ []) (a : ds.all (isDig b) = true)
    (hr : ∀ c ∈ r.head?, c ≠ 120 ∧ c ≠ 88) : basePrefix 0 (body ++ r) = (b, ds ++ r) := by
  unfold basePrefix
  rw [if_neg (by simp)]
  cases ds with
  | nil => exact absurd rfl ne
  | cons c l =>
    simp only [List.all_cons, Bool.and_eq_true] at a
    rcases h with ⟨rfl, rfl, f⟩ | ⟨rfl, rfl, f⟩ | ⟨rfl, x, hx, rfl⟩
    · simp only [List.head?_cons, ne_eq, Option.some.injEq] at f
      simp only [List.cons_append]
      split
      · rename_i h; simp only [List.cons.injEq] at h; exact absurd h.1 f
      · rename_i h; simp only [List.cons.injEq] at h; exact absurd h.1 f
      · rfl
    · simp only [List.head?_cons, Option.some.injEq] at f
      subst f
      have hx : ∀ x q, l ++ r = x :: q → x ≠ 120 ∧ x ≠ 88 := by
        intro x q e
        cases l with
        | nil => simp only [List.nil_append] at e; exact hr x (by simp [e])
        | cons y l' =>
          simp only [List.cons_append, List.cons.injEq] at e
          obtain ⟨rfl, _⟩ := e
          simp only [List.all_cons, Bool.and_eq_true] at a
          exact (digit_not y (dig10_bounds y (isDig_mono (by omega) a.2.1))).2.2.2
      simp only [List.cons_append]
      split
      · rename_i x d q h
        simp only [List.cons.injEq, true_and] at h
        have := hx x (d :: q) h
        rw [if_neg (by simp [this])]
      · rfl
      · rename_i h; exact absurd rfl (h _)
    · have hd := a.1
      rcases hx with rfl | rfl <;> simp [hd]

theorem scan_complete {b : Nat} {t r : List UInt8} {neg : Bool} {m : Nat} (h : NumText b t neg m)
    (hr : ∀ c ∈ r.head?, isDig b c = false ∧ c ≠ 120 ∧ c ≠ 88) : scanNum 0 (t ++ r) = some (neg, m, r) := by
  obtain ⟨ws, sg, body, ds, rfl, a, k, hb, ne, ad, rfl⟩ := h
  unfold scanNum
  dsimp only
  obtain ⟨c, l, e, hc⟩ := hb.head ne ad
  rw [List.append_assoc, sign_append a k ⟨c, l ++ r, by rw [e]; rfl, hc⟩]
  dsimp only
  rw [basePrefix_body hb ne ad (fun c hc => (hr c hc).2)]
  dsimp only
  obtain ⟨e1, e2⟩ := dropWhile_append_stop ad (fun c hc => (hr c hc).1)
  rw [e1, e2, if_neg (by simpa using ne)]

/-! ## Decimal numbers -/

theorem digit_dig10 : ∀ c : UInt8, isDigit c = true → isDig 10 c = true ∧ digitVal c = c.toNat - 48 := by
  intro c h
  have hd : digitVal c = c.toNat - 48 := by simp [digitVal, h]
  refine ⟨?_, hd⟩
  have := (isDigit_iff c).1 h
  simp only [isDig, hd, decide_eq_true_eq]; omega

theorem foldl_digits : ∀ (l : List UInt8) (acc : Nat), l.all isDigit = true →
    l.foldl (fun a c => a * 10 + digitVal c) acc = digits acc l
  | [], _, _ => rfl
  | c :: l, acc, h => by
    simp only [List.all_cons, Bool.and_eq_true] at h
    simp only [List.foldl_cons, digits, h.1, if_true, (digit_dig10 c h.1).2]
    exact foldl_digits l _ h.2

theorem dec_head (n : Nat) (h : 0 < n) : ∃ c l, dec n = c :: l ∧ c ≠ 48 := by
  fun_induction dec n with
  | case1 n h' =>
    refine ⟨_, [], rfl, ?_⟩
    intro e
    have := congrArg UInt8.toNat e
    simp at this; omega
  | case2 n h' ih =>
    obtain ⟨c, l, e, hc⟩ := ih (by omega)
    exact ⟨c, l ++ _, by rw [e]; rfl, hc⟩

theorem dec_text (n : Nat) : ∃ b, b ≤ 10 ∧ NumText b (dec n) false n := by
  have ha : (dec n).all isDigit = true := by simp only [List.all_eq_true]; exact dec_digits n
  by_cases h : n = 0
  · subst h
    refine ⟨8, by omega, [], [], [48], [48], by decide +kernel, rfl, .inl ⟨.inl rfl, rfl⟩, .inr (.inl ⟨rfl, rfl, rfl⟩), by simp,
      by decide +kernel, by decide +kernel⟩
  · refine ⟨10, by omega, [], [], dec n, dec n, rfl, rfl, .inl ⟨.inl rfl, rfl⟩, .inl ⟨rfl, rfl, ?_⟩, dec_ne_nil n, ?_, ?_⟩
    · obtain ⟨c, l, e, hc⟩ := dec_head n (by omega)
      simpa [e] using hc
    · simp only [List.all_eq_true] at ha ⊢
      exact fun c hc => (digit_dig10 c (ha c hc)).1
    · rw [numVal, foldl_digits _ _ ha, digits_dec]

end Gensio.Pparm
