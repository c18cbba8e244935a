import Verif.Model.SerSpeed
import Verif.Lemmas.CLib

/-!
# The options of the serial device gensio: C218
-/

namespace Gensio.SerSpeed
open CLib

/-- The letters of the parities: none, even, odd, mark, space. -/
def letters : List (UInt8 × Nat) :=
  [(78, 1), (110, 1), (69, 3), (101, 3), (79, 2), (111, 2), (77, 4), (109, 4), (83, 5), (115, 5)]

/-- The sizes of a character. -/
def sizes : List (UInt8 × Nat) := [(53, 5), (54, 6), (55, 7), (56, 8)]

/-- The stop bits. -/
def stops : List (UInt8 × Nat) := [(49, 1), (50, 2)]

/-- What may follow the speed: parity, then data bits, then stop bits, each
only after the one before. -/
inductive Tail : List UInt8 → Option Nat → Option Nat → Option Nat → Prop where
  | e : Tail [] none none none
  | p (x : UInt8) (p : Nat) (h : (x, p) ∈ letters) : Tail [x] (some p) none none
  | pd (x y : UInt8) (p d : Nat) (h : (x, p) ∈ letters) (hd : (y, d) ∈ sizes) : Tail [x, y] (some p) (some d) none
  | pds (x y z : UInt8) (p d s : Nat) (h : (x, p) ∈ letters) (hd : (y, d) ∈ sizes) (hs : (z, s) ∈ stops) :
    Tail [x, y, z] (some p) (some d) (some s)

/-- The settings afterwards. -/
def res (c : Cfg) (v : Int) (p d s : Option Nat) : Cfg :=
  { c with baud := v, parity := p.getD c.parity, data := d.getD c.data, stop := s.getD c.stop }

theorem parityOf_iff (x : UInt8) (p : Nat) : parityOf x = some p ↔ (x, p) ∈ letters := by
  constructor
  · intro h
    simp only [parityOf] at h
    split at h
    · rename_i hx; simp only [Option.some.injEq] at h; subst h; rcases hx with rfl | rfl <;> decide
    · split at h
      · rename_i hx; simp only [Option.some.injEq] at h; subst h; rcases hx with rfl | rfl <;> decide
      · split at h
        · rename_i hx; simp only [Option.some.injEq] at h; subst h; rcases hx with rfl | rfl <;> decide
        · split at h
          · rename_i hx; simp only [Option.some.injEq] at h; subst h; rcases hx with rfl | rfl <;> decide
          · split at h
            · rename_i hx; simp only [Option.some.injEq] at h; subst h; rcases hx with rfl | rfl <;> decide
            · simp at h
  · intro h
    have : ∀ e ∈ letters, parityOf e.1 = some e.2 := by decide +kernel
    exact this (x, p) h

theorem stopBits_ok (c c' : Cfg) (l : List UInt8) :
    stopBits c l = (c', .ok) ↔ (l = [] ∧ c' = c) ∨ ∃ z s, (z, s) ∈ stops ∧ l = [z] ∧ c' = { c with stop := s } := by
  constructor
  · intro h
    rcases l with _ | ⟨x, r⟩
    · simp only [stopBits, Prod.mk.injEq, and_true] at h
      exact .inl ⟨rfl, h.symm⟩
    · right
      simp only [stopBits] at h
      split at h
      · rename_i hx
        simp only [Prod.mk.injEq] at h
        rcases r with _ | ⟨y, r⟩
        · exact ⟨49, 1, by decide, by rw [hx], h.1.symm⟩
        · simp at h
      · split at h
        · rename_i hx
          simp only [Prod.mk.injEq] at h
          rcases r with _ | ⟨y, r⟩
          · exact ⟨50, 2, by decide, by rw [hx], h.1.symm⟩
          · simp at h
        · simp at h
  · rintro (⟨rfl, rfl⟩ | ⟨z, s, hm, rfl, rfl⟩)
    · rfl
    · simp only [stops, List.mem_cons, Prod.mk.injEq, List.not_mem_nil, or_false] at hm
      rcases hm with ⟨rfl, rfl⟩ | ⟨rfl, rfl⟩ <;> rfl

theorem dataBits_ok (c c' : Cfg) (l : List UInt8) :
    dataBits c l = (c', .ok) ↔ (l = [] ∧ c' = c) ∨
      ∃ y d r, (y, d) ∈ sizes ∧ l = y :: r ∧ stopBits { c with data := d } r = (c', .ok) := by
  simp only [sizes, List.mem_cons, Prod.mk.injEq, List.not_mem_nil, or_false]
  rcases l with _ | ⟨x, r⟩ <;> simp only [dataBits] <;> grind

theorem setFrom_ok (c c' : Cfg) (v : Int) (l : List UInt8) :
    setFrom c v l = (c', .ok) ↔ ∃ p d s, Tail l p d s ∧ c' = res c v p d s := by
  constructor
  · intro h
    simp only [setFrom] at h
    split at h
    · simp only [Prod.mk.injEq, and_true] at h
      exact ⟨_, _, _, .e, by rw [← h]; rfl⟩
    · rename_i x r
      split at h
      · simp at h
      · rename_i p hp
        rw [parityOf_iff] at hp
        rw [dataBits_ok] at h
        rcases h with ⟨h1, h2⟩ | ⟨y, d, r', hd, h1, h2⟩
        · subst h1; exact ⟨_, _, _, .p x p hp, h2⟩
        · subst h1
          rw [stopBits_ok] at h2
          rcases h2 with ⟨h3, h4⟩ | ⟨z, s, hs, h3, h4⟩
          · subst h3; exact ⟨_, _, _, .pd x y p d hp hd, h4⟩
          · subst h3; exact ⟨_, _, _, .pds x y z p d s hp hd hs, h4⟩
  · rintro ⟨p, d, s, ht, rfl⟩
    cases ht with
    | e => rfl
    | p x p h =>
      rw [← parityOf_iff] at h
      simp [setFrom, h, dataBits, res]
    | pd x y p d h hd =>
      rw [← parityOf_iff] at h
      simp only [setFrom, h]
      exact (dataBits_ok _ _ _).mpr (.inr ⟨y, d, [], hd, rfl, rfl⟩)
    | pds x y z p d s h hd hs =>
      rw [← parityOf_iff] at h
      simp only [setFrom, h]
      exact (dataBits_ok _ _ _).mpr (.inr ⟨y, d, [z], hd, rfl, (stopBits_ok _ _ _).mpr (.inr ⟨z, s, hs, rfl, rfl⟩)⟩)

/-- What follows the speed starts with a letter. -/
theorem tail_digit (l : List UInt8) (p d s : Option Nat) (h : Tail l p d s) (x : UInt8) (t : List UInt8) (hl : l = x :: t) :
    isDigit x = false := by
  have key : ∀ e ∈ letters, isDigit e.1 = false := by decide +kernel
  cases h with
  | e => simp at hl
  | p y p h => simp at hl; rw [← hl.1]; exact key _ h
  | pd y _ p d h _ => simp at hl; rw [← hl.1]; exact key _ h
  | pds y _ _ p d s h _ _ => simp at hl; rw [← hl.1]; exact key _ h

theorem takeWhile_stop (ds r : List UInt8) (hd : ∀ x ∈ ds, isDigit x = true) (hr : ∀ c t, r = c :: t → isDigit c = false) :
    (ds ++ r).takeWhile isDigit = ds := by
  induction ds with
  | nil =>
    cases r with
    | nil => rfl
    | cons c t => simp [List.takeWhile, hr c t rfl]
  | cons c ds ih =>
    simp only [List.cons_append, List.takeWhile, hd c (by simp)]
    rw [ih (fun x hx => hd x (by simp [hx]))]

/-- The number at the start of a string, as an `int` has it. -/
theorem speedstr_eq (ds r : List UInt8) (hn : ds ≠ []) (hd : ∀ x ∈ ds, isDigit x = true)
    (hr : ∀ c t, r = c :: t → isDigit c = false) :
    speedstr (ds ++ r) = some (Pparm.toInt32 (if digits 0 ds ≥ 2 ^ 64 then 2 ^ 64 - 1 else digits 0 ds : Nat), r) := by
  have h1 := takeWhile_stop ds r hd hr
  have h2 := dropWhile_digits ds r hd hr
  have h3 : digits 0 (ds ++ r) = digits 0 ds := by
    rw [digits_append _ _ _ hd, digits_stop _ _ hr]
  have h4 : (strtoul10 (ds ++ r)).1 = if digits 0 ds ≥ 2 ^ 64 then 2 ^ 64 - 1 else digits 0 ds := by
    cases ds with
    | nil => exact absurd rfl hn
    | cons c t =>
      have hc := hd c (by simp)
      simp only [List.cons_append] at h3 ⊢
      simp only [strtoul10, sign_digit c _ hc, hc, if_true, h3, Bool.false_eq_true, if_false]
  have h5 : ds.isEmpty = false := by cases ds with
    | nil => exact absurd rfl hn
    | cons c t => rfl
  simp [speedstr, h1, h2, h4, h5]

theorem split_digits (s : List UInt8) : ∃ ds r, s = ds ++ r ∧ (∀ x ∈ ds, isDigit x = true) ∧
    (∀ c t, r = c :: t → isDigit c = false) := by
  induction s with
  | nil => exact ⟨[], [], rfl, by simp, by simp⟩
  | cons c s ih =>
    by_cases hc : isDigit c = true
    · obtain ⟨ds, r, h1, h2, h3⟩ := ih
      refine ⟨c :: ds, r, by rw [h1]; rfl, ?_, h3⟩
      intro x hx
      rcases List.mem_cons.1 hx with h | h
      · rw [h]; exact hc
      · exact h2 x h
    · refine ⟨[], c :: s, rfl, by simp, ?_⟩
      intro c' t h
      simp at h
      rw [← h.1]; simpa using hc

theorem toInt32_small (n : Nat) (h : n < 2 ^ 31) :
    Pparm.toInt32 (if n ≥ 2 ^ 64 then 2 ^ 64 - 1 else n : Nat) = n := by
  rw [if_neg (by omega)]
  simp only [Pparm.toInt32, Pparm.intMax, Pparm.uintMax]
  omega

/-- **C218, partial**: a speed is accepted exactly if it is a number of 10 or
more, followed by nothing, by a parity, by a parity and data bits, or by a
parity, data bits and stop bits; the settings are then those that are given,
and the others stay.  Partial: the number must fit into an `int`; see
`C218_wrap_violated`. -/
theorem C218_accept_partial (c c' : Cfg) (s : List UInt8) (hv : digits 0 s < 2 ^ 31) :
    handle c s = (c', .ok) ↔ ∃ ds tl p d q, s = ds ++ tl ∧ ds ≠ [] ∧ (∀ x ∈ ds, isDigit x = true) ∧ Tail tl p d q ∧
      10 ≤ digits 0 ds ∧ c' = res c (digits 0 ds) p d q := by
  constructor
  · intro h
    obtain ⟨ds, r, rfl, h2, h3⟩ := split_digits s
    have hdd : digits 0 (ds ++ r) = digits 0 ds := by
      rw [digits_append _ _ _ h2, digits_stop _ _ h3]
    rw [hdd] at hv
    by_cases hn : ds = []
    · subst hn
      have : (r.takeWhile isDigit) = [] := by
        have := takeWhile_stop [] r (by simp) h3
        simpa using this
      simp [handle, speedstr, this] at h
    · simp only [handle, speedstr_eq ds r hn h2 h3, toInt32_small _ hv] at h
      split at h
      · simp at h
      · rename_i hlt
        obtain ⟨p, d, q, ht, hc⟩ := (setFrom_ok c c' _ r).mp h
        exact ⟨ds, r, p, d, q, rfl, hn, h2, ht, by omega, hc⟩
  · rintro ⟨ds, tl, p, d, q, rfl, hn, h2, ht, h10, hc⟩
    have h3 := tail_digit tl p d q ht
    have hdd : digits 0 (ds ++ tl) = digits 0 ds := by
      rw [digits_append _ _ _ h2, digits_stop _ _ h3]
    rw [hdd] at hv
    simp only [handle, speedstr_eq ds tl hn h2 h3, toInt32_small _ hv]
    rw [if_neg (by omega)]
    exact (setFrom_ok c c' _ tl).mpr ⟨p, d, q, ht, hc⟩

/-- **C218**: a number as it is printed, with what may follow, sets that speed. -/
theorem C218_print (c : Cfg) (n : Nat) (tl : List UInt8) (p d q : Option Nat) (h1 : 10 ≤ n) (h2 : n < 2 ^ 31)
    (ht : Tail tl p d q) : handle c (dec n ++ tl) = (res c n p d q, .ok) := by
  have hd := dec_digits n
  have hs := tail_digit tl p d q ht
  have hv : digits 0 (dec n) = n := digits_dec n
  have ha : digits 0 (dec n ++ tl) < 2 ^ 31 := by
    rw [digits_append _ _ _ hd, digits_stop _ _ hs, hv]; exact h2
  exact (C218_accept_partial c _ _ ha).mpr ⟨dec n, tl, p, d, q, rfl, dec_ne_nil n, hd, ht, by rw [hv]; exact h1, by rw [hv]⟩

example : handle {} (bs "115200E72") = ({ baud := 115200, parity := 3, data := 7, stop := 2 }, .ok) ∧
    (handle {} (bs "115200X72")).2 = .bad ∧ (handle {} (bs "9")).2 = .no ∧ (handle {} (bs "9600N812")).2 = .bad ∧
    handle { stop := 2 } (bs "300o") = ({ baud := 300, parity := 2, stop := 2 }, .ok) := by decide +kernel

/-- **C218 is violated**: a speed that does not fit is not refused, but another
speed is set: the number is put into an `int`. -/
theorem C218_wrap_violated (c : Cfg) (n : Nat) (h1 : 2 ^ 32 ≤ n) (h2 : n < 2 ^ 64) (h3 : 10 ≤ n % 2 ^ 32) (h4 : n % 2 ^ 32 < 2 ^ 31) :
    handle c (dec n) = ({ c with baud := (n % 2 ^ 32 : Nat) }, .ok) := by
  have hd := dec_digits n
  have hv : digits 0 (dec n) = n := digits_dec n
  have hs := speedstr_eq (dec n) [] (dec_ne_nil n) hd (by simp)
  rw [List.append_nil, hv, if_neg (by omega)] at hs
  have hi : Pparm.toInt32 (n : Int) = (n % 2 ^ 32 : Nat) := by
    simp only [Pparm.toInt32, Pparm.intMax, Pparm.uintMax]
    omega
  simp only [handle, hs, hi]
  rw [if_neg (by omega)]
  rfl

example : (process false {} (bs "speed=4294977296")) = ({ baud := 10000 }, true) := by decide +kernel

/-! ## The other options -/

/-- Not more than one digit at the start. -/
def Few (s : List UInt8) : Prop := (s.takeWhile isDigit).length ≤ 1

theorem lower_digit (x : UInt8) : isDigit (Pparm.toLower x) = isDigit x := by
  have : ∀ n : Fin 256, isDigit (Pparm.toLower (UInt8.ofNat n)) = isDigit (UInt8.ofNat n) := by decide +kernel
  have := this ⟨x.toNat, x.toNat_lt⟩
  simpa using this

theorem few_lower (a b : List UInt8) (h : a.map Pparm.toLower = b.map Pparm.toLower) (hb : Few b) : Few a := by
  have : ∀ l : List UInt8, (l.takeWhile isDigit).length = ((l.map Pparm.toLower).takeWhile isDigit).length := by
    intro l
    induction l with
    | nil => rfl
    | cons x l ih =>
      simp only [List.map_cons, List.takeWhile, lower_digit]
      cases isDigit x <;> simp [ih]
  simp only [Few] at *
  rw [this a, h, ← this b]
  exact hb

theorem few_no (c : Cfg) (s : List UInt8) (h : Few s) : handle c s = (c, .no) := by
  obtain ⟨ds, r, rfl, h2, h3⟩ := split_digits s
  simp only [Few, takeWhile_stop ds r h2 h3] at h
  rcases ds with _ | ⟨x, _ | ⟨y, ds⟩⟩
  · have : (r.takeWhile isDigit) = [] := by
      have := takeWhile_stop [] r (by simp) h3
      simpa using this
    simp [handle, speedstr, this]
  · have hx := h2 x (by simp)
    have hs := speedstr_eq [x] r (by simp) h2 h3
    have hlt : digits 0 [x] < 10 := by
      have := (isDigit_iff x).mp hx
      simp [digits, hx]; omega
    simp only [handle, hs, toInt32_small _ (Nat.lt_trans hlt (by decide))]
    rw [if_pos (by omega)]
  · simp at h

theorem few_start (s key : List UInt8) (hk : ∃ x t, key = x :: t ∧ isDigit x = false)
    (h : (s.take key.length).map Pparm.toLower = key.map Pparm.toLower) : Few s := by
  obtain ⟨x, t, rfl, hx⟩ := hk
  cases s with
  | nil => simp at h
  | cons y s =>
    simp only [List.length_cons, List.take_succ_cons, List.map_cons, List.cons.injEq] at h
    have : isDigit y = false := by rw [← lower_digit y, h.1, lower_digit, hx]
    simp [Few, List.takeWhile, this]

theorem bool_few (err : Bool) (s key : List UInt8) (b : Bool) (hk : ∃ x t, key = x :: t ∧ isDigit x = false)
    (h : (Pparm.bool err s key).val = some b) : Few s := by
  simp only [Pparm.bool] at h
  split at h
  · simp [Pparm.Res.no] at h
  · split at h
    · rename_i he
      refine few_lower s key he ?_
      obtain ⟨x, t, rfl, hx⟩ := hk
      simp [Few, List.takeWhile, hx]
    · split at h
      · simp [Pparm.Res.no] at h
      · rename_i v hv
        simp only [Pparm.value] at hv
        split at hv
        · simp at hv
        · split at hv
          · simp at hv
          · rename_i hne
            exact few_start s key hk (by simpa using hne)

theorem tryBools_few (l : List (List UInt8 × (Cfg → Bool → Cfg))) (err : Bool) (s : List UInt8) (c c' : Cfg)
    (hk : ∀ e ∈ l, (∃ x t, e.1 = x :: t ∧ isDigit x = false) ∧
      ∀ c b, (e.2 c b).baud = c.baud ∧ (e.2 c b).parity = c.parity ∧ (e.2 c b).data = c.data ∧ (e.2 c b).stop = c.stop)
    (h : tryBools err s c l = some c') :
    Few s ∧ c'.baud = c.baud ∧ c'.parity = c.parity ∧ c'.data = c.data ∧ c'.stop = c.stop := by
  induction l generalizing err with
  | nil => simp [tryBools] at h
  | cons e l ih =>
    obtain ⟨key, f⟩ := e
    have h0 := hk (key, f) (by simp)
    simp only [tryBools] at h
    split at h
    · rename_i b hb
      simp only [Option.some.injEq] at h
      rw [← h]
      exact ⟨bool_few err s key b h0.1 hb, h0.2 c b⟩
    · exact ih _ (fun e he => hk e (by simp [he])) h

theorem tryOlds_few (l : List (List UInt8 × Bool × (Cfg → Cfg))) (s : List UInt8) (c c' : Cfg)
    (hk : ∀ e ∈ l, Few e.1 ∧ ∀ c, (e.2.2 c).baud = c.baud) (h : tryOlds s c l = some c') : Few s ∧ c'.baud = c.baud := by
  induction l with
  | nil => simp [tryOlds] at h
  | cons e l ih =>
    obtain ⟨key, nc, f⟩ := e
    have h0 := hk (key, nc, f) (by simp)
    simp only [tryOlds] at h
    split at h
    · rename_i hs
      simp only [Option.some.injEq] at h
      rw [← h]
      refine ⟨?_, h0.2 c⟩
      simp only [same] at hs
      split at hs
      · exact few_lower s key (by simpa using hs) h0.1
      · have : s = key := by simpa using hs
        rw [this]; exact h0.1
    · exact ih (fun e he => hk e (by simp [he])) h

/-- **C218**: an option that is accepted, and is not a speed in whole, leaves
the speed as it was: although what looks like a speed is tried first and
changes settings before it is refused, no such text is taken for another
option. -/
theorem C218_other (err : Bool) (c c' : Cfg) (parm : List UInt8) (h : process err c parm = (c', true)) :
    (∃ str, (Pparm.value err parm (bs "speed") = some str ∨ str = parm) ∧ handle c str = (c', .ok)) ∨
    c'.baud = c.baud := by
  simp only [process] at h
  split at h
  · rename_i str hv
    left
    simp only [Prod.mk.injEq, decide_eq_true_eq] at h
    exact ⟨str, .inl hv, by rw [← h.1, ← h.2]⟩
  · split at h
    · rename_i hok
      left
      simp only [Prod.mk.injEq, and_true] at h
      exact ⟨parm, .inr rfl, by rw [← h, ← hok]⟩
    · right
      have kb : ∀ e ∈ bools, (∃ x t, e.1 = x :: t ∧ isDigit x = false) ∧
          ∀ c b, (e.2 c b).baud = c.baud ∧ (e.2 c b).parity = c.parity ∧ (e.2 c b).data = c.data ∧ (e.2 c b).stop = c.stop := by
        intro e he
        have hh : ∀ k ∈ bools.map (·.1), (match k with | x :: _ => !isDigit x | [] => false) = true := by decide +kernel
        refine ⟨?_, ?_⟩
        · have := hh e.1 (List.mem_map_of_mem he)
          cases hk : e.1 with
          | nil => rw [hk] at this; simp at this
          | cons x t => rw [hk] at this; exact ⟨x, t, rfl, by simpa using this⟩
        · simp only [bools, List.mem_cons, List.not_mem_nil, or_false] at he
          intro c b
          rcases he with rfl | rfl | rfl | rfl | rfl | rfl <;> simp
      have ko : ∀ e ∈ olds, Few e.1 ∧ ∀ c, (e.2.2 c).baud = c.baud := by
        intro e he
        have hh : ∀ k ∈ olds.map (·.1), decide ((k.takeWhile isDigit).length ≤ 1) = true := by decide +kernel
        refine ⟨?_, ?_⟩
        · have := hh e.1 (List.mem_map_of_mem he)
          simpa [Few] using this
        · simp only [olds, List.mem_cons, List.not_mem_nil, or_false] at he
          intro c
          rcases he with rfl | rfl | rfl | rfl | rfl | rfl | rfl | rfl | rfl | rfl | rfl | rfl | rfl | rfl | rfl | rfl <;> rfl
      split at h
      · rename_i c1 hb
        simp only [Prod.mk.injEq, and_true] at h
        obtain ⟨f1, f2, -⟩ := tryBools_few bools _ parm _ c1 kb hb
        rw [← h, f2, few_no c parm f1]
      · split at h
        · rename_i c1 hb
          simp only [Prod.mk.injEq, and_true] at h
          obtain ⟨f1, f2⟩ := tryOlds_few olds parm _ c1 ko hb
          rw [← h, f2, few_no c parm f1]
        · simp at h

example : process false {} (bs "2StopBits") = ({ stop := 2 }, true) ∧
    process false {} (bs "xonxoff=off") = ({}, true) ∧ process false {} (bs "rtscts") = ({ rtscts := true }, true) ∧
    process false {} (bs "rts=on") = ({ rtsFirst := true, rts := some true }, true) ∧
    process false {} (bs "ODD") = ({ parity := 2 }, true) ∧ (process false {} (bs "odd")).2 = false ∧
    (process false {} (bs "speed=9")).2 = false ∧
    -- Refused, but the settings have changed.
    process false {} (bs "1200Ex") = ({ baud := 1200, parity := 3 }, false) := by decide +kernel

end Gensio.SerSpeed
