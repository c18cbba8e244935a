import Verif.Model.Ax25Addr
import Verif.Lemmas.CLib
/-!
# C46, C47, C59–C61: AX.25 addresses
-/
namespace Gensio.Ax25Addr

open Gensio.CLib

/-! ### Valid addresses -/

/-- A letter or digit, as allowed in a call sign. -/
def alnum (c : UInt8) : Bool := isUpper c || isDigit c || isLower c

/-- An upper case letter or digit. -/
def upnum (c : UInt8) : Bool := isUpper c || isDigit c

/-- The contents of `addr` for a call sign: padded with NULs to 7 bytes. -/
def padded (call : List UInt8) : List UInt8 := call ++ List.replicate (7 - call.length) 0

/-- A valid sub address with call sign `call`. -/
structure SubOk (a : Sub) (call : List UInt8) : Prop where
  ne : call ≠ []
  len : call.length ≤ 6
  chars : ∀ c ∈ call, upnum c = true
  addr : a.addr = padded call
  ssid : a.ssid < 16

theorem byte_facts : ∀ n : Fin 256, let c := UInt8.ofNat n.val
    (upnum c = true → c ≠ 0 ∧ c ≠ 32 ∧ c ≠ 44 ∧ c ≠ 45 ∧ c ≠ 58 ∧ c < 128 ∧ isLower c = false ∧ toUpper c = c ∧ alnum c = true) ∧
    (alnum c = true → c ≠ 0 ∧ c ≠ 45 ∧ c ≠ 59 ∧ upnum (toUpper c) = true ∧ toUpper c ≠ 0) ∧
    (c < 128 → (c <<< 1) &&& 1 = 0 ∧ (c <<< 1) >>> 1 = c) ∧
    ((c &&& 1 = 0) → (c >>> 1) <<< 1 = c) := by decide +kernel

theorem byte_fact (c : UInt8) :
    (upnum c = true → c ≠ 0 ∧ c ≠ 32 ∧ c ≠ 44 ∧ c ≠ 45 ∧ c ≠ 58 ∧ c < 128 ∧ isLower c = false ∧ toUpper c = c ∧ alnum c = true) ∧
    (alnum c = true → c ≠ 0 ∧ c ≠ 45 ∧ c ≠ 59 ∧ upnum (toUpper c) = true ∧ toUpper c ≠ 0) ∧
    (c < 128 → (c <<< 1) &&& 1 = 0 ∧ (c <<< 1) >>> 1 = c) ∧
    ((c &&& 1 = 0) → (c >>> 1) <<< 1 = c) := by
  simpa using byte_facts ⟨c.toNat, c.toNat_lt⟩

theorem cstr_append_zeros (l : List UInt8) (k : Nat) (h : ∀ c ∈ l, c ≠ 0) : cstr (l ++ List.replicate k 0) = l := by
  induction l with
  | nil => cases k <;> simp [cstr, List.replicate_succ]
  | cons c l ih =>
    have := ih (fun x hx => h x (by simp [hx]))
    simp only [cstr] at this ⊢
    rw [List.cons_append, List.takeWhile_cons, if_pos (by simp [h c (by simp)]), this]

theorem cstr_padded (l : List UInt8) (h : ∀ c ∈ l, c ≠ 0) : cstr (padded l) = l := cstr_append_zeros l _ h

theorem SubOk.cstr {a : Sub} {call : List UInt8} (h : SubOk a call) : cstr a.addr = call := by
  rw [h.addr]; exact cstr_padded call (fun c hc => ((byte_fact c).1 (h.chars c hc)).1)

/-! ### Parsing a sub address -/

theorem set_at (m : List UInt8) (pre : List UInt8) (x c : UInt8) (t : List UInt8) (hm : m = pre ++ x :: t) :
    m.set pre.length c = pre ++ c :: t := by
  subst hm; simp [List.set_append]

theorem callLoop_spec (l : List UInt8) (hl : ∀ c ∈ l, alnum c = true) :
    ∀ (m : List UInt8) (i n : Nat) (rest : List UInt8), m.length = 7 → l.length ≤ n → i + n ≤ 6 →
    (l.length = n ∨ rest = [] ∨ ∃ t, rest = 45 :: t) →
    callLoop m i n (l ++ rest) = some (m.take i ++ l.map toUpper ++ m.drop (i + l.length), i + l.length, rest) := by
  induction l with
  | nil =>
    intro m i n rest hm hn hi hr
    simp only [List.nil_append, List.map_nil, List.append_nil, List.length_nil, Nat.add_zero, List.take_append_drop]
    cases n with
    | zero => cases rest <;> rfl
    | succ n =>
      rcases hr with hr | hr | ⟨t, hr⟩
      · simp at hr
      · subst hr; rfl
      · subst hr; simp only [callLoop]; rw [if_neg (by decide), if_neg (by decide)]; simp
  | cons c l ih =>
    intro m i n rest hm hn hi hr
    obtain ⟨n, rfl⟩ : ∃ k, n = k + 1 := ⟨n - 1, by simp at hn; omega⟩
    have hc := hl c (by simp)
    have hl' : ∀ c ∈ l, alnum c = true := fun x hx => hl x (by simp [hx])
    have step : callLoop m i (n + 1) ((c :: l) ++ rest) = callLoop (m.set i (toUpper c)) (i + 1) n (l ++ rest) := by
      rw [List.cons_append, callLoop]
      by_cases hu : (isUpper c || isDigit c) = true
      · rw [if_pos hu, ((byte_fact c).1 hu).2.2.2.2.2.2.2.1]
      · rw [if_neg hu]
        have : isLower c = true := by
          simp only [alnum, Bool.or_eq_true] at hc hu
          rcases hc with hc | hc
          · exact absurd hc hu
          · exact hc
        rw [if_pos this]
    rw [step, ih hl' (m.set i (toUpper c)) (i + 1) n rest (by simp [hm]) (by simp at hn; omega) (by omega)
      (by rcases hr with hr | hr; · left; simp at hr; exact hr
          · right; exact hr)]
    have e1 : (m.set i (toUpper c)).take (i + 1) = m.take i ++ [toUpper c] := by
      rw [List.take_succ_eq_append_getElem (by simp [hm]; omega)]
      simp [List.take_set]
      rw [List.set_eq_of_length_le (by simp; omega)]
    have e2 : (m.set i (toUpper c)).drop (i + 1 + l.length) = m.drop (i + (l.length + 1)) := by
      rw [List.drop_set_of_lt (by omega)]; congr 1; omega
    rw [e1, e2]
    simp; omega

theorem strToSub_call (call : List UInt8) (h0 : call ≠ []) (h6 : call.length ≤ 6) (hc : ∀ c ∈ call, alnum c = true)
    (a : Sub) (ha : a.addr.length = 7) (isCr : Bool) :
    strToSub call a isCr = some { a with addr := call.map toUpper ++ a.addr.drop call.length, ssid := 0 } := by
  have := callLoop_spec call hc a.addr 0 6 [] ha h6 (by omega) (Or.inr (Or.inl rfl))
  simp only [List.append_nil] at this
  rw [strToSub, if_neg h0, this]
  simp

/-- What follows the sub address number. -/
inductive Tail : List UInt8 → Prop
  | nil : Tail []
  | cons (c : UInt8) (t : List UInt8) (h : isDigit c = false) : Tail (c :: t)

theorem strToSub_dash (call : List UInt8) (h6 : call.length ≤ 6) (hc : ∀ c ∈ call, alnum c = true)
    (a : Sub) (ha : a.addr.length = 7) (isCr : Bool) (rest : List UInt8) :
    strToSub (call ++ 45 :: rest) a isCr =
      let j := (strtoul10 rest).1 % 2 ^ 32
      if (strtoul10 rest).2 = [] then
        if j ≥ 16 then none else some ⟨padded (call.map toUpper), j, false, true, true, true⟩
      else if (strtoul10 rest).2 = [58, 104] ∧ isCr = false then
        if j ≥ 16 then none else some ⟨padded (call.map toUpper), j, true, true, true, true⟩
      else none := by
  have := callLoop_spec call hc a.addr 0 6 (45 :: rest) ha h6 (by omega) (Or.inr (Or.inr ⟨rest, rfl⟩))
  rw [strToSub, if_neg (by simp), this]
  have hclr : clearFrom (call.map toUpper ++ a.addr.drop call.length) call.length = padded (call.map toUpper) := by
    simp only [clearFrom, padded]
    rw [List.take_append_of_le_length (by simp)]
    rw [List.take_of_length_le (by simp)]
    simp [ha]
  simp only [List.take_zero, List.nil_append, Nat.zero_add, ne_eq, not_true_eq_false, if_false, hclr]
  cases hr : (strtoul10 rest).2 with
  | nil => simp
  | cons e t =>
    simp only [reduceCtorEq, if_false, Bool.and_eq_true, Bool.not_eq_true', decide_eq_true_eq]
    by_cases he : e = 58
    · subst he
      rw [if_pos rfl]
      by_cases ht : (58 :: t : List UInt8) = [58, 104]
      · simp [ht]
      · simp [ht]
    · rw [if_neg he, if_neg (by simp [he])]

/-! ### Text round trip (C47) -/

/-- The text of a digipeater field. -/
def field (e : Sub) : List UInt8 := subToStr e false ++ (if e.ch then [58, 104] else [])

theorem extraToStr_cons (e : Sub) (es : List Sub) : extraToStr (e :: es) = 44 :: (field e ++ extraToStr es) := by
  simp [extraToStr, field, List.append_assoc]

theorem splitComma_field (l : List UInt8) (h : ∀ c ∈ l, c ≠ 44) (r : List UInt8) :
    splitComma (l ++ 44 :: r) = (l, some r) := by
  induction l with
  | nil => simp [splitComma]
  | cons c l ih =>
    simp only [List.cons_append, splitComma, if_neg (h c (by simp)), ih (fun x hx => h x (by simp [hx]))]

theorem splitComma_last (l : List UInt8) (h : ∀ c ∈ l, c ≠ 44) : splitComma l = (l, none) := by
  induction l with
  | nil => simp [splitComma]
  | cons c l ih =>
    simp only [splitComma, if_neg (h c (by simp)), ih (fun x hx => h x (by simp [hx]))]

theorem digit_ne (c : UInt8) (h : isDigit c = true) : c ≠ 44 ∧ c ≠ 59 := by
  rw [isDigit_iff] at h
  constructor <;> (intro hc; subst hc; simp at h)

theorem subToStr_nocomma {a : Sub} {call : List UInt8} (h : SubOk a call) : ∀ c ∈ subToStr a false, c ≠ 44 := by
  intro c hc
  have hcall : ∀ c ∈ cstr a.addr, c ≠ 44 := by
    rw [h.cstr]; intro c hc; exact ((byte_fact c).1 (h.chars c hc)).2.2.1
  simp only [subToStr, Bool.false_eq_true, if_false, List.append_nil] at hc
  split at hc
  · simp only [List.mem_append, List.mem_singleton] at hc
    rcases hc with (hc | hc) | hc
    · exact hcall c hc
    · subst hc; decide
    · exact (digit_ne c (dec_digits _ c hc)).1
  · exact hcall c hc

theorem field_nocomma {a : Sub} {call : List UInt8} (h : SubOk a call) : ∀ c ∈ field a, c ≠ 44 := by
  intro c hc
  simp only [field, List.mem_append] at hc
  rcases hc with hc | hc
  · exact subToStr_nocomma h c hc
  · split at hc
    · simp at hc; rcases hc with hc | hc <;> (subst hc; decide)
    · simp at hc

theorem map_toUpper (call : List UInt8) (h : ∀ c ∈ call, upnum c = true) : call.map toUpper = call := by
  induction call with
  | nil => rfl
  | cons c l ih =>
    rw [List.map_cons, ih (fun x hx => h x (by simp [hx])), ((byte_fact c).1 (h c (by simp))).2.2.2.2.2.2.2.1]

theorem drop_zero (n : Nat) : Sub.zero.addr.drop n = List.replicate (7 - n) 0 := by
  have : Sub.zero.addr = List.replicate 7 0 := rfl
  rw [this, List.drop_replicate]

/-- Parsing the text of a valid sub address gives the same call sign and number, without the flag. -/
theorem strToSub_toStr {a : Sub} {call : List UInt8} (h : SubOk a call) (isCr : Bool) :
    ∃ b, strToSub (subToStr a false) Sub.zero isCr = some b ∧ b.addr = a.addr ∧ b.ssid = a.ssid ∧ b.ch = false := by
  have hal : ∀ c ∈ call, alnum c = true := fun c hc => ((byte_fact c).1 (h.chars c hc)).2.2.2.2.2.2.2.2
  have hu := map_toUpper call h.chars
  by_cases hs : a.ssid = 0
  · refine ⟨{ Sub.zero with addr := padded call, ssid := 0 }, ?_, h.addr.symm, hs.symm, rfl⟩
    simp only [subToStr, hs, ne_eq, not_true_eq_false, if_false, Bool.false_eq_true, List.append_nil, h.cstr]
    rw [strToSub_call call h.ne h.len hal Sub.zero rfl, hu, drop_zero]
    rfl
  · refine ⟨⟨padded call, a.ssid, false, true, true, true⟩, ?_, h.addr.symm, rfl, rfl⟩
    have ht := strtoul10_dec a.ssid [] (by have := h.ssid; omega) (by simp)
    rw [List.append_nil] at ht
    simp only [subToStr, hs, ne_eq, not_false_eq_true, if_true, Bool.false_eq_true, if_false, List.append_nil, h.cstr, List.append_assoc]
    rw [show call ++ ([45] ++ dec a.ssid) = call ++ 45 :: dec a.ssid from rfl, strToSub_dash call h.len hal Sub.zero rfl, ht, hu]
    have := h.ssid
    simp only [if_true]
    rw [if_neg (by omega), Nat.mod_eq_of_lt (by omega)]

/-- A digipeater field without the flag, or with a number. -/
theorem strToSub_field {a : Sub} {call : List UInt8} (h : SubOk a call) (hh : a.ch = true → a.ssid ≠ 0) :
    ∃ b, strToSub (field a) Sub.zero false = some b ∧ b.addr = a.addr ∧ b.ssid = a.ssid ∧ b.ch = a.ch := by
  cases hch : a.ch with
  | false =>
    obtain ⟨b, h1, h2, h3, h4⟩ := strToSub_toStr h false
    refine ⟨b, ?_, h2, h3, h4⟩
    simp only [field, hch, Bool.false_eq_true, if_false, List.append_nil]; exact h1
  | true =>
    have hs := hh hch
    have hal : ∀ c ∈ call, alnum c = true := fun c hc => ((byte_fact c).1 (h.chars c hc)).2.2.2.2.2.2.2.2
    refine ⟨⟨padded call, a.ssid, true, true, true, true⟩, ?_, h.addr.symm, rfl, rfl⟩
    have ht := strtoul10_dec a.ssid [58, 104] (by have := h.ssid; omega) (by
      intro c t e; simp at e; rw [← e.1]; decide)
    simp only [field, subToStr, hs, ne_eq, not_false_eq_true, if_true, Bool.false_eq_true, if_false, List.append_nil, h.cstr, List.append_assoc, hch]
    rw [show call ++ ([45] ++ (dec a.ssid ++ [58, 104])) = call ++ 45 :: (dec a.ssid ++ [58, 104]) from rfl,
      strToSub_dash call h.len hal Sub.zero rfl, ht, map_toUpper call h.chars]
    have := h.ssid
    simp only [and_self, if_true, reduceCtorEq, if_false]
    rw [if_neg (by omega), Nat.mod_eq_of_lt (by omega)]

/-- A digipeater with the flag and number 0 cannot be parsed. -/
theorem strToSub_field_bad {a : Sub} {call : List UInt8} (h : SubOk a call) (hch : a.ch = true) (hs : a.ssid = 0) :
    strToSub (field a) Sub.zero false = none := by
  have hal : ∀ c ∈ call, alnum c = true := fun c hc => ((byte_fact c).1 (h.chars c hc)).2.2.2.2.2.2.2.2
  simp only [field, subToStr, hs, hch, ne_eq, not_true_eq_false, if_false, Bool.false_eq_true, List.append_nil, h.cstr, if_true]
  rw [strToSub, if_neg (by simp)]
  have gen : ∀ (l : List UInt8) (m : List UInt8) (i n : Nat), (∀ c ∈ l, alnum c = true) → l.length ≤ n →
      callLoop m i n (l ++ [58, 104]) = none ∨ ∃ m' i', callLoop m i n (l ++ [58, 104]) = some (m', i', [58, 104]) := by
    intro l
    induction l with
    | nil =>
      intro m i n _ _
      cases n with
      | zero => exact Or.inr ⟨m, i, rfl⟩
      | succ n => left; rfl
    | cons c l ih =>
      intro m i n hl hn
      obtain ⟨n, rfl⟩ : ∃ k, n = k + 1 := ⟨n - 1, by simp at hn; omega⟩
      have hc := hl c (by simp)
      rw [List.cons_append, callLoop]
      by_cases hu : (isUpper c || isDigit c) = true
      · rw [if_pos hu]
        exact ih _ _ _ (fun x hx => hl x (by simp [hx])) (by simp at hn; omega)
      · rw [if_neg hu]
        have : isLower c = true := by
          simp only [alnum, Bool.or_eq_true] at hc hu
          rcases hc with hc | hc
          · exact absurd hc hu
          · exact hc
        rw [if_pos this]
        exact ih _ _ _ (fun x hx => hl x (by simp [hx])) (by simp at hn; omega)
  rcases gen call Sub.zero.addr 0 6 hal h.len with e | ⟨m', i', e⟩
  · rw [e]
  · rw [e]; simp

/-- A valid address: valid sub addresses and at most eight digipeaters. -/
structure AddrOk (a : Addr) : Prop where
  port : a.tncPort < 256
  dest : ∃ c, SubOk a.dest c
  src : ∃ c, SubOk a.src c
  extra : ∀ e ∈ a.extra, ∃ c, SubOk e c
  nextra : a.extra.length ≤ 8

theorem splitExtras_spec (es : List Sub) : ∀ (n : Nat) (e : Sub), (∀ x ∈ e :: es, ∃ c, SubOk x c) → es.length < n →
    splitExtras n (some (field e ++ extraToStr es)) = ((e :: es).map field, false) := by
  induction es with
  | nil =>
    intro n e h hn
    obtain ⟨k, rfl⟩ : ∃ k, n = k + 1 := ⟨n - 1, by omega⟩
    obtain ⟨c, hc⟩ := h e (by simp)
    simp [extraToStr, splitExtras, splitComma_last _ (field_nocomma hc)]
  | cons f fs ih =>
    intro n e h hn
    obtain ⟨k, rfl⟩ : ∃ k, n = k + 1 := ⟨n - 1, by omega⟩
    obtain ⟨c, hc⟩ := h e (by simp)
    simp only [extraToStr_cons, splitExtras, splitComma_field _ (field_nocomma hc)]
    rw [ih k f (fun x hx => h x (by simp at hx ⊢; right; exact hx)) (by simp at hn; omega)]
    rfl

theorem splitSrc (s : Sub) (c : List UInt8) (hs : SubOk s c) (es : List Sub) (h : ∀ x ∈ es, ∃ c, SubOk x c)
    (hn : es.length ≤ 8) :
    (splitComma (subToStr s false ++ extraToStr es)).1 = subToStr s false ∧
    splitExtras maxExtra (splitComma (subToStr s false ++ extraToStr es)).2 = (es.map field, false) := by
  cases es with
  | nil => simp [extraToStr, splitComma_last _ (subToStr_nocomma hs), splitExtras]
  | cons e es =>
    rw [extraToStr_cons, splitComma_field _ (subToStr_nocomma hs)]
    exact ⟨rfl, splitExtras_spec es 8 e h (by simp at hn; omega)⟩

theorem strToAddr_unfold (a : Addr) (h : AddrOk a) :
    strToAddr (addrToStr a) = addrAlloc a.tncPort (subToStr a.dest false) (subToStr a.src false) (a.extra.map field) := by
  obtain ⟨cd, hd⟩ := h.dest
  obtain ⟨cs, hs⟩ := h.src
  have hpre : dropPrefix (addrToStr a) =
      dec a.tncPort ++ (44 :: (subToStr a.dest false ++ 44 :: (subToStr a.src false ++ extraToStr a.extra))) := by
    simp [dropPrefix, addrToStr, prefixStr]
  have ht := strtoul10_dec a.tncPort (44 :: (subToStr a.dest false ++ 44 :: (subToStr a.src false ++ extraToStr a.extra)))
    (by have := h.port; omega) (by intro c t e; simp at e; rw [← e.1]; decide)
  rw [strToAddr, hpre]
  cases hdec : dec a.tncPort with
  | nil => exact absurd hdec (dec_ne_nil _)
  | cons c t =>
    have hdig := dec_digits a.tncPort c (by rw [hdec]; simp)
    rw [hdec] at ht
    simp only [List.cons_append] at ht ⊢
    simp only [hdig, Bool.not_true, Bool.false_eq_true, if_false, ht, splitComma_field _ (subToStr_nocomma hd)]
    obtain ⟨e1, e2⟩ := splitSrc a.src cs hs a.extra h.extra h.nextra
    rw [e1, e2]
    simp only [Bool.false_eq_true, if_false]
    rw [Nat.mod_eq_of_lt h.port]

theorem allocExtra_spec (es : List Sub) (h : ∀ x ∈ es, ∃ c, SubOk x c) (hh : ∀ x ∈ es, x.ch = true → x.ssid ≠ 0) :
    ∃ bs, allocExtra (es.map field) = some bs ∧ bs.length = es.length ∧
      bs.map (fun b => (b.addr, b.ssid, b.ch)) = es.map (fun b => (b.addr, b.ssid, b.ch)) := by
  induction es with
  | nil => exact ⟨[], rfl, rfl, rfl⟩
  | cons e es ih =>
    obtain ⟨bs, h1, h2, h3⟩ := ih (fun x hx => h x (by simp [hx])) (fun x hx => hh x (by simp [hx]))
    obtain ⟨c, hc⟩ := h e (by simp)
    obtain ⟨b, e1, e2, e3, e4⟩ := strToSub_field hc (hh e (by simp))
    exact ⟨b :: bs, by simp [allocExtra, e1, h1], by simp [h2], by simp [e2, e3, e4, h3]⟩

theorem allocExtra_bad (es : List Sub) (h : ∀ x ∈ es, ∃ c, SubOk x c) (e : Sub) (he : e ∈ es) (hch : e.ch = true)
    (hs : e.ssid = 0) : allocExtra (es.map field) = none := by
  induction es with
  | nil => simp at he
  | cons x es ih =>
    rw [List.map_cons, allocExtra]
    rcases List.mem_cons.1 he with hx | hx
    · subst hx
      obtain ⟨c, hc⟩ := h e (by simp)
      rw [strToSub_field_bad hc hch hs]; rfl
    · rw [ih (fun y hy => h y (by simp [hy])) hx]
      cases strToSub (field x) Sub.zero false <;> rfl

/-- **C47 (what holds)**: for every valid address whose flagged digipeaters have a number, parsing its
text gives an address with the same call signs, numbers and flags of the digipeaters, in the same
order.  Missing: the TNC port, and digipeaters with flag and number 0 (both violated below). -/
theorem C47_roundtrip_partial (a : Addr) (h : AddrOk a) (hh : ∀ e ∈ a.extra, e.ch = true → e.ssid ≠ 0) :
    ∃ b, strToAddr (addrToStr a) = some b ∧ b.dest.addr = a.dest.addr ∧ b.dest.ssid = a.dest.ssid ∧
      b.src.addr = a.src.addr ∧ b.src.ssid = a.src.ssid ∧
      b.extra.map (fun e => (e.addr, e.ssid, e.ch)) = a.extra.map (fun e => (e.addr, e.ssid, e.ch)) ∧
      b.tncPort = 0 ∧ addrEqual a b false true = true := by
  obtain ⟨cd, hd⟩ := h.dest
  obtain ⟨cs, hs⟩ := h.src
  obtain ⟨d, d1, d2, d3, _⟩ := strToSub_toStr hd true
  obtain ⟨s, s1, s2, s3, _⟩ := strToSub_toStr hs true
  obtain ⟨es, e1, e2, e3⟩ := allocExtra_spec a.extra h.extra hh
  refine ⟨⟨0, d, s, es⟩, ?_, d2, d3, s2, s3, e3, rfl, ?_⟩
  · rw [strToAddr_unfold a h, addrAlloc, if_neg (by simp; exact h.nextra), d1, s1, e1]
    rfl
  · have hx : ∀ (xs ys : List Sub), ys.map (fun b => (b.addr, b.ssid, b.ch)) = xs.map (fun b => (b.addr, b.ssid, b.ch)) →
        extraEqual xs ys = true := by
      intro xs
      induction xs with
      | nil => intro ys _; simp [extraEqual]
      | cons x xs ih =>
        intro ys hy
        cases ys with
        | nil => simp at hy
        | cons y ys =>
          simp only [List.map_cons, List.cons.injEq, Prod.mk.injEq] at hy
          simp [extraEqual, hy.1.1, hy.1.2.1, ih ys hy.2]
    simp [addrEqual, subEqual, d2, d3, s2, s3, e2, hx a.extra es e3]

/-- **C47 is violated, port**: for every valid address on a TNC port other than 0, whatever its text
parses to is a different address. -/
theorem C47_port_violated (a : Addr) (h : AddrOk a) (hp : a.tncPort ≠ 0) (b : Addr)
    (hb : strToAddr (addrToStr a) = some b) (all : Bool) : addrEqual a b true all = false := by
  rw [strToAddr_unfold a h, addrAlloc] at hb
  have : b.tncPort = 0 := by
    split at hb
    · simp at hb
    · simp only [Option.bind_eq_bind, Option.bind_eq_some_iff] at hb
      obtain ⟨_, _, _, _, _, _, hb⟩ := hb
      simp at hb; rw [← hb]
  simp [addrEqual, this, hp]

/-- **C47 is violated, flag**: a digipeater with the flag set and number 0 gives text that is refused. -/
theorem C47_flag_violated (a : Addr) (h : AddrOk a) (e : Sub) (he : e ∈ a.extra) (hch : e.ch = true)
    (hs : e.ssid = 0) : strToAddr (addrToStr a) = none := by
  rw [strToAddr_unfold a h, addrAlloc, if_neg (by simp; exact h.nextra), allocExtra_bad a.extra h.extra e he hch hs]
  cases strToSub (subToStr a.dest false) Sub.zero true with
  | none => rfl
  | some d => cases strToSub (subToStr a.src false) Sub.zero true <;> rfl

/-- An address to try things on: port 3, "AB1CDE" number 0, "N0CALL" number 15, digipeater "WIDE2" number 1
with the flag. -/
def exA : Addr :=
  ⟨3, ⟨[65, 66, 49, 67, 68, 69, 0], 0, false, false, false, false⟩, ⟨[78, 48, 67, 65, 76, 76, 0], 15, false, true, true, true⟩,
    [⟨[87, 73, 68, 69, 50, 0, 0], 1, true, true, true, true⟩]⟩

example : addrToStr exA =
    [97, 120, 50, 53, 58, 51, 44, 65, 66, 49, 67, 68, 69, 44, 78, 48, 67, 65, 76, 76, 45, 49, 53, 44, 87, 73, 68, 69,
     50, 45, 49, 58, 104] := by
  simp [addrToStr, exA, subToStr, extraToStr, cstr, prefixStr, dec]

theorem exA_ok : AddrOk exA := by
  refine ⟨by decide, ⟨[65, 66, 49, 67, 68, 69], by decide, by decide, by decide, rfl, by decide⟩,
    ⟨[78, 48, 67, 65, 76, 76], by decide, by decide, by decide, rfl, by decide⟩, ?_, by decide⟩
  intro e he
  simp [exA] at he
  subst he
  exact ⟨[87, 73, 68, 69, 50], by decide, by decide, by decide, rfl, by decide⟩

example : ∃ b, strToAddr (addrToStr exA) = some b ∧ addrEqual exA b false true = true ∧ addrEqual exA b true true = false := by
  obtain ⟨b, h1, _, _, _, _, _, _, h2⟩ := C47_roundtrip_partial exA exA_ok (by decide)
  exact ⟨b, h1, h2, C47_port_violated exA exA_ok (by decide) b h1 true⟩

/-! ### C59: the result depends on the text only -/

/-- **C59 (what holds)**: with a number given, the result does not depend on what was in the
structure before. -/
theorem C59_number_partial (call rest : List UInt8) (h6 : call.length ≤ 6) (hc : ∀ c ∈ call, alnum c = true)
    (a b : Sub) (ha : a.addr.length = 7) (hb : b.addr.length = 7) (isCr : Bool) :
    strToSub (call ++ 45 :: rest) a isCr = strToSub (call ++ 45 :: rest) b isCr := by
  rw [strToSub_dash call h6 hc a ha, strToSub_dash call h6 hc b hb]

/-- **C59 is violated**: for every call sign without a number, a structure holding anything but 0
behind it (as on the stack of `ax25_chan_control`, lib/gensio_ax25.c:4871, :4912) gives an address that
is not equal to the one meant. -/
theorem C59_stale_violated (call : List UInt8) (h0 : call ≠ []) (h6 : call.length ≤ 6) (hc : ∀ c ∈ call, alnum c = true)
    (a : Sub) (ha : a.addr.length = 7) (x : UInt8) (hx : a.addr[call.length]? = some x) (hx0 : x ≠ 0) (isCr : Bool) :
    ∃ p q, strToSub call Sub.zero isCr = some p ∧ strToSub call a isCr = some q ∧ subEqual p q = false := by
  refine ⟨_, _, strToSub_call call h0 h6 hc Sub.zero rfl isCr, strToSub_call call h0 h6 hc a ha isCr, ?_⟩
  have hne : ∀ c ∈ call.map toUpper, c ≠ 0 := by
    intro c hm
    obtain ⟨d, hd, rfl⟩ := List.mem_map.1 hm
    exact ((byte_fact d).2.1 (hc d hd)).2.2.2.2
  have e1 : cstr (call.map toUpper ++ Sub.zero.addr.drop call.length) = call.map toUpper := by
    rw [drop_zero]; exact cstr_append_zeros _ _ hne
  have e2 : (cstr (call.map toUpper ++ a.addr.drop call.length)).length > (call.map toUpper).length := by
    have hd : a.addr.drop call.length = x :: a.addr.drop (call.length + 1) := by
      rw [List.getElem?_eq_some_iff] at hx
      obtain ⟨hl, hx⟩ := hx
      rw [List.drop_eq_getElem_cons hl, hx]
    simp only [cstr]
    rw [hd, List.takeWhile_append_of_pos (by simpa using hne), List.takeWhile_cons, if_pos (by simp [hx0])]
    simp
  simp only [subEqual, Bool.and_eq_false_iff, decide_eq_false_iff_not]
  left
  intro e
  rw [e1] at e
  rw [← e] at e2
  omega

example : ∃ p q, strToSub [97, 98] Sub.zero false = some p ∧
    strToSub [97, 98] { Sub.zero with addr := [1, 2, 3, 4, 5, 6, 7] } false = some q ∧ subEqual p q = false :=
  C59_stale_violated [97, 98] (by decide) (by decide) (by decide) _ rfl 3 rfl (by decide) false

/-! ### C60: lists of addresses -/

theorem callLoop_mem (s : List UInt8) : ∀ (m : List UInt8) (i n : Nat) (m' : List UInt8) (i' : Nat) (rest : List UInt8),
    callLoop m i n s = some (m', i', rest) → 59 ∈ s → 59 ∈ rest := by
  induction s with
  | nil => intro m i n m' i' rest _ h; simp at h
  | cons c s ih =>
    intro m i n m' i' rest h hm
    cases n with
    | zero => simp [callLoop] at h; rw [← h.2.2]; exact hm
    | succ n =>
      rw [callLoop] at h
      by_cases h1 : (isUpper c || isDigit c) = true
      · rw [if_pos h1] at h
        refine ih _ _ _ _ _ _ h ?_
        rcases List.mem_cons.1 hm with hm | hm
        · subst hm; exact absurd h1 (by decide)
        · exact hm
      · rw [if_neg h1] at h
        by_cases h2 : isLower c = true
        · rw [if_pos h2] at h
          refine ih _ _ _ _ _ _ h ?_
          rcases List.mem_cons.1 hm with hm | hm
          · subst hm; exact absurd h2 (by decide)
          · exact hm
        · rw [if_neg h2] at h
          by_cases h3 : c = 45
          · rw [if_pos h3] at h; simp at h; rw [← h.2.2]; exact hm
          · rw [if_neg h3] at h; simp at h

theorem strToSub_semi (s : List UInt8) (h : 59 ∈ s) (a : Sub) (isCr : Bool) : strToSub s a isCr = none := by
  rw [strToSub]
  split
  · rfl
  · split
    · rfl
    · rename_i m i rest heq
      have hr := callLoop_mem s _ _ _ _ _ _ heq h
      cases rest with
      | nil => simp at hr
      | cons c rest =>
        simp only
        split
        · rfl
        · rename_i hc
          have hc : c = 45 := by simpa using hc
          have hr : 59 ∈ rest := by
            rcases List.mem_cons.1 hr with hr | hr
            · rw [hc] at hr; exact absurd hr (by decide)
            · exact hr
          have hm := mem_strtoul10 59 (by decide) (by decide) (by decide) (by decide) rest hr
          cases he : (strtoul10 rest).2 with
          | nil => rw [he] at hm; simp at hm
          | cons e t =>
            rw [he] at hm
            simp only
            split
            · rw [if_neg]
              intro hh
              simp only [Bool.and_eq_true, decide_eq_true_eq] at hh
              rw [hh.2] at hm
              exact absurd hm (by decide)
            · rfl

/-- **C60 is violated**: every `laddr=`/`uiaddr=` value naming more than one address is refused. -/
theorem C60_list_violated (s : List UInt8) (h : 59 ∈ s) : scanLaddrs s = none := by
  rw [scanLaddrs, scanLoop]
  split
  · rfl
  · rw [strToSub_semi s h]; rfl

theorem splitSemi_none (s : List UInt8) (h : 59 ∉ s) : splitSemi s = (s, none) := by
  induction s with
  | nil => rfl
  | cons c s ih =>
    simp at h
    rw [splitSemi, if_neg (fun e => h.1 e.symm), ih h.2]

/-- **C60 (what holds)**: a single address is parsed (at most 9 characters). -/
theorem C60_single_partial (s : List UInt8) (h : 59 ∉ s) (hl : s.length ≤ 9) :
    scanLaddrs s = (strToSub s Sub.zero false).map ([·]) := by
  rw [scanLaddrs, List.count_eq_zero_of_not_mem h, scanLoop, splitSemi_none s h]
  simp only
  rw [if_neg (by omega)]
  cases strToSub s Sub.zero false <;> rfl

example : scanLaddrs [65, 66, 45, 49, 59, 67, 68, 45, 50] = none := C60_list_violated _ (by decide)
example : scanLaddrs [65, 66, 45, 49] = some [⟨[65, 66, 0, 0, 0, 0, 0], 1, false, true, true, true⟩] := by decide +kernel

/-! ### C61: accepted syntax -/

theorem callLoop_sound (s : List UInt8) : ∀ (m : List UInt8) (i n : Nat) (m' : List UInt8) (i' : Nat) (rest : List UInt8),
    m.length = 7 → i + n ≤ 6 → callLoop m i n s = some (m', i', rest) →
    ∃ call, s = call ++ rest ∧ call.length ≤ n ∧ (∀ c ∈ call, alnum c = true) ∧ i' = i + call.length ∧
      (call.length = n ∨ rest = [] ∨ ∃ t, rest = 45 :: t) := by
  induction s with
  | nil =>
    intro m i n m' i' rest hm hi h
    cases n <;> (simp [callLoop] at h; exact ⟨[], by simp [h], by simp, by simp, by simp [h], by simp [h]⟩)
  | cons c s ih =>
    intro m i n m' i' rest hm hi h
    cases n with
    | zero => simp [callLoop] at h; exact ⟨[], by simp [h], by simp, by simp, by simp [h], by simp⟩
    | succ n =>
      rw [callLoop] at h
      have key : ∀ x, alnum c = true → callLoop (m.set i x) (i + 1) n s = some (m', i', rest) →
          ∃ call, c :: s = call ++ rest ∧ call.length ≤ n + 1 ∧ (∀ c ∈ call, alnum c = true) ∧ i' = i + call.length ∧
            (call.length = n + 1 ∨ rest = [] ∨ ∃ t, rest = 45 :: t) := by
        intro x hc hx
        obtain ⟨call, h1, h2, h3, h4, h5⟩ := ih _ _ _ _ _ _ (by simp [hm]) (by omega) hx
        refine ⟨c :: call, by simp [h1], by simp; omega, ?_, by simp; omega, ?_⟩
        · intro y hy
          rcases List.mem_cons.1 hy with hy | hy
          · rw [hy]; exact hc
          · exact h3 y hy
        · rcases h5 with h5 | h5
          · left; simp [h5]
          · right; exact h5
      by_cases h1 : (isUpper c || isDigit c) = true
      · rw [if_pos h1] at h; exact key c (by simp only [alnum, h1, Bool.true_or]) h
      · rw [if_neg h1] at h
        by_cases h2 : isLower c = true
        · rw [if_pos h2] at h; exact key _ (by simp only [alnum, h2, Bool.or_true]) h
        · rw [if_neg h2] at h
          by_cases h3 : c = 45
          · rw [if_pos h3] at h
            simp at h
            refine ⟨[], by simp [h], by simp, by simp, by simp [h], Or.inr (Or.inr ⟨s, by rw [← h.2.2, h3]⟩)⟩
          · rw [if_neg h3] at h; simp at h

/-- **C61 (what holds)**: anything accepted starts with at most six letters and digits, which are the call
sign of the result in upper case; nothing else follows, or a dash follows and the number is below 16.
Call signs alone and with a documented number are accepted with that number.  Missing: the rest of the
documented syntax (violated below). -/
theorem C61_syntax_partial :
    (∀ s isCr a, strToSub s Sub.zero isCr = some a → ∃ call rest, s = call ++ rest ∧ call.length ≤ 6 ∧
      (∀ c ∈ call, alnum c = true) ∧ cstr a.addr = call.map toUpper ∧ a.ssid < 16 ∧
      ((rest = [] ∧ call ≠ [] ∧ a.ssid = 0 ∧ a.ch = false) ∨ ∃ t, rest = 45 :: t)) ∧
    (∀ call isCr, call ≠ [] → call.length ≤ 6 → (∀ c ∈ call, alnum c = true) →
      ∃ a, strToSub call Sub.zero isCr = some a ∧ cstr a.addr = call.map toUpper ∧ a.ssid = 0) ∧
    (∀ call n isCr, call ≠ [] → call.length ≤ 6 → (∀ c ∈ call, alnum c = true) → n < 16 →
      ∃ a, strToSub (call ++ 45 :: dec n) Sub.zero isCr = some a ∧ cstr a.addr = call.map toUpper ∧ a.ssid = n) := by
  have hne : ∀ call : List UInt8, (∀ c ∈ call, alnum c = true) → ∀ c ∈ call.map toUpper, c ≠ 0 := by
    intro call hc c hm
    obtain ⟨d, hd, rfl⟩ := List.mem_map.1 hm
    exact ((byte_fact d).2.1 (hc d hd)).2.2.2.2
  refine ⟨?_, ?_, ?_⟩
  · intro s isCr a h
    have h' := h
    rw [strToSub] at h'
    split at h'
    · simp at h'
    · rename_i hs0
      split at h'
      · simp at h'
      · rename_i m i rest heq
        obtain ⟨call, h1, h2, h3, h4, h5⟩ := callLoop_sound s _ _ _ _ _ _ rfl (by decide) heq
        cases rest with
        | nil =>
          have e : s = call := by simp [h1]
          subst e
          rw [strToSub_call s hs0 h2 h3 Sub.zero rfl] at h
          simp at h
          subst h
          refine ⟨s, [], by simp, h2, h3, ?_, by simp, Or.inl ⟨rfl, hs0, rfl, rfl⟩⟩
          simp only
          rw [drop_zero]; exact cstr_append_zeros _ _ (hne s h3)
        | cons c t =>
          simp only at h'
          split at h'
          · simp at h'
          · rename_i hc
            have hc : c = 45 := by simpa using hc
            subst hc
            rw [h1, strToSub_dash call h2 h3 Sub.zero rfl] at h
            simp only at h
            refine ⟨call, 45 :: t, h1, h2, h3, ?_, ?_, Or.inr ⟨t, rfl⟩⟩
            · split at h
              · split at h
                · simp at h
                · simp at h; rw [← h]; exact cstr_padded _ (hne call h3)
              · split at h
                · split at h
                  · simp at h
                  · simp at h; rw [← h]; exact cstr_padded _ (hne call h3)
                · simp at h
            · split at h
              · split at h
                · simp at h
                · rename_i hj; simp at h; rw [← h]; simp only; omega
              · split at h
                · split at h
                  · simp at h
                  · rename_i hj; simp at h; rw [← h]; simp only; omega
                · simp at h
  · intro call isCr h0 h6 hc
    refine ⟨_, strToSub_call call h0 h6 hc Sub.zero rfl isCr, ?_, rfl⟩
    simp only
    rw [drop_zero]; exact cstr_append_zeros _ _ (hne call hc)
  · intro call n isCr h0 h6 hc hn
    have ht := strtoul10_dec n [] (by omega) (by simp)
    rw [List.append_nil] at ht
    refine ⟨⟨padded (call.map toUpper), n, false, true, true, true⟩, ?_, cstr_padded _ (hne call hc), rfl⟩
    rw [strToSub_dash call h6 hc Sub.zero rfl, ht]
    simp only [if_true]
    rw [if_neg (by omega), Nat.mod_eq_of_lt (by omega)]

/-- **C61 is violated**: for every call sign the documented command/response mark ":c" or ":r" of a source or
destination is refused, and a missing, signed or far too large number is accepted; so is an empty call
sign. -/
theorem C61_syntax_violated (call : List UInt8) (h6 : call.length ≤ 6) (hc : ∀ c ∈ call, alnum c = true) :
    (∀ n, n < 16 → strToSub (call ++ 45 :: (dec n ++ [58, 99])) Sub.zero true = none ∧
      strToSub (call ++ 45 :: (dec n ++ [58, 114])) Sub.zero true = none) ∧
    (strToSub (call ++ [45]) Sub.zero true).isSome = true ∧
    (strToSub (call ++ 45 :: [43, 53]) Sub.zero true).isSome = true ∧
    (∀ n k, n < 16 → k < 2 ^ 31 → (strToSub (call ++ 45 :: dec (n + 2 ^ 32 * k)) Sub.zero true).map (·.ssid) = some n) := by
  refine ⟨?_, ?_, ?_, ?_⟩
  · intro n hn
    constructor
    · rw [strToSub_dash call h6 hc Sub.zero rfl, strtoul10_dec n [58, 99] (by omega) (by intro c t e; simp at e; rw [← e.1]; decide)]
      simp
    · rw [strToSub_dash call h6 hc Sub.zero rfl, strtoul10_dec n [58, 114] (by omega) (by intro c t e; simp at e; rw [← e.1]; decide)]
      simp
  · rw [strToSub_dash call h6 hc Sub.zero rfl]
    have : strtoul10 [] = (0, []) := rfl
    simp [this]
  · rw [strToSub_dash call h6 hc Sub.zero rfl]
    have : strtoul10 [43, 53] = (5, []) := by decide +kernel
    simp [this]
  · intro n k hn hk
    have ht := strtoul10_dec (n + 2 ^ 32 * k) [] (by omega) (by simp)
    rw [List.append_nil] at ht
    rw [strToSub_dash call h6 hc Sub.zero rfl, ht]
    simp only [if_true]
    have : (n + 2 ^ 32 * k) % 2 ^ 32 = n := by omega
    rw [this, if_neg (by omega)]
    rfl

example : strToSub [45, 53] Sub.zero true = some ⟨[0, 0, 0, 0, 0, 0, 0], 5, false, true, true, true⟩ := by decide +kernel

/-! ### Wire format (C46) -/

/-- A sub address that can go on the wire: up to six 7 bit characters other than NUL and space. -/
structure WireOk (a : Sub) (call : List UInt8) : Prop where
  len : call.length ≤ 6
  chars : ∀ c ∈ call, c ≠ 0 ∧ c ≠ 32 ∧ c < 128
  addr : a.addr = padded call
  ssid : a.ssid < 16

theorem SubOk.wire {a : Sub} {call : List UInt8} (h : SubOk a call) : WireOk a call :=
  ⟨h.len, fun c hc => let f := (byte_fact c).1 (h.chars c hc); ⟨f.1, f.2.1, f.2.2.2.2.2.1⟩, h.addr, h.ssid⟩

/-- One received character. -/
def d1 (b : UInt8) : UInt8 := if b >>> 1 = 32 then 0 else b >>> 1

theorem decodeCall_spec (l : List UInt8) : ∀ (data : List UInt8) (pos i : Nat) (r : List UInt8),
    data.drop (i + pos) = l ++ r →
    decodeCall data pos i l.length = some (if l.all (fun b => b &&& 1 = 0) then some (l.map d1) else none) := by
  induction l with
  | nil => intro data pos i r h; simp [decodeCall]
  | cons b l ih =>
    intro data pos i r h
    have hb : data[i + pos]? = some b := by
      have := congrArg (·[0]?) h
      simpa [List.getElem?_drop] using this
    have hd : data.drop (i + 1 + pos) = l ++ r := by
      have := congrArg (List.drop 1) h
      rw [List.drop_drop] at this
      rw [show i + 1 + pos = i + pos + 1 by omega, this]; rfl
    simp only [List.length_cons, decodeCall, hb, Option.bind_eq_bind, Option.bind_some, ih data pos (i + 1) r hd]
    by_cases h1 : b &&& 1 = 0
    · rw [if_neg (by simp [h1])]
      cases hall : l.all (fun b => decide (b &&& 1 = 0)) <;> simp [h1, hall, d1]
    · rw [if_pos (by simpa using h1)]
      simp [h1]

/-- The sub address made of seven bytes. -/
def subOf (l : List UInt8) (b : UInt8) : Sub :=
  ⟨l.map d1 ++ [0], ((b >>> 1) &&& 0xf).toNat, (b >>> 7) &&& 1 ≠ 0, (b >>> 5) &&& 1 ≠ 0, (b >>> 6) &&& 1 ≠ 0, true⟩

theorem decodeSub_spec (data : List UInt8) (pos len : Nat) (l : List UInt8) (b : UInt8) (r : List UInt8)
    (hl : l.length = 6) (h : data.drop pos = l ++ b :: r) (hlen : pos + 7 ≤ len) (h64 : len < 2 ^ 64) :
    decodeSub data pos len =
      if l.all (fun b => b &&& 1 = 0) then some (if b &&& 1 ≠ 0 then .remclose else .ok, subOf l b, pos + 7)
      else some (.inval, Sub.zero, pos) := by
  have hb : data[6 + pos]? = some b := by
    have := congrArg (·[6]?) h
    rw [List.getElem?_drop, Nat.add_comm pos 6] at this
    rw [this, List.getElem?_append_right (by omega)]; simp [hl]
  have hc := decodeCall_spec l data pos 0 (b :: r) (by simpa using h)
  rw [hl] at hc
  rw [decodeSub, if_neg (by omega), hc]
  cases hall : l.all (fun b => decide (b &&& 1 = 0)) with
  | false => simp
  | true => simp only [if_true, Option.bind_eq_bind, Option.bind_some, hb, subOf]

theorem decodeSub_short (data : List UInt8) (pos len : Nat) (hpos : pos ≤ len) (hlen : len < pos + 7) (h64 : len < 2 ^ 64) :
    decodeSub data pos len = some (.inval, Sub.zero, pos) := by
  rw [decodeSub, if_pos (by omega)]

theorem split7 (data : List UInt8) (pos : Nat) (h : pos + 7 ≤ data.length) :
    ∃ l b r, l.length = 6 ∧ data.drop pos = l ++ b :: r := by
  refine ⟨(data.drop pos).take 6, data[pos + 6], data.drop (pos + 7), by simp; omega, ?_⟩
  have h1 : (data.drop pos).drop 6 = data[pos + 6] :: data.drop (pos + 7) := by
    rw [List.drop_drop, List.drop_eq_getElem_cons (by omega)]
  rw [← h1, List.take_append_drop]

/-- Any call on data inside the packet is answered, and what it uses is inside the packet. -/
theorem decodeSub_safe (data : List UInt8) (pos : Nat) (hp : pos ≤ data.length) (h64 : data.length < 2 ^ 64) :
    ∃ rc a p, decodeSub data pos data.length = some (rc, a, p) ∧ p ≤ data.length ∧ (rc ≠ .inval → p = pos + 7) := by
  by_cases h : pos + 7 ≤ data.length
  · obtain ⟨l, b, r, hl, hd⟩ := split7 data pos h
    rw [decodeSub_spec data pos _ l b r hl hd h h64]
    split
    · exact ⟨_, _, _, rfl, h, fun _ => rfl⟩
    · exact ⟨_, _, _, rfl, hp, by simp⟩
  · rw [decodeSub_short data pos _ hp (by omega) h64]
    exact ⟨_, _, _, rfl, hp, by simp⟩

theorem decodeExtra_safe (data : List UInt8) (h64 : data.length < 2 ^ 64) : ∀ n pos, pos ≤ data.length →
    ∃ r, decodeExtra data data.length n pos = some r ∧
      ∀ es p, r = some (es, p) → p = pos + 7 * es.length ∧ p ≤ data.length ∧ es.length ≤ n := by
  intro n
  induction n with
  | zero => intro pos _; exact ⟨none, rfl, by simp⟩
  | succ n ih =>
    intro pos hp
    obtain ⟨rc, a, p, h1, h2, h3⟩ := decodeSub_safe data pos hp h64
    rw [decodeExtra, h1]
    cases rc with
    | inval => exact ⟨none, rfl, by simp⟩
    | remclose =>
      refine ⟨some ([a], p), rfl, ?_⟩
      intro es q h
      simp at h
      rw [← h.1, ← h.2]
      have := h3 (by simp)
      simp; omega
    | ok =>
      have hp7 := h3 (by simp)
      obtain ⟨r, r1, r2⟩ := ih p h2
      simp only [Option.bind_eq_bind, Option.bind_some, r1]
      cases r with
      | none => exact ⟨none, rfl, by simp⟩
      | some q =>
        obtain ⟨es, q⟩ := q
        refine ⟨some (a :: es, q), rfl, ?_⟩
        intro es' q' h
        simp at h
        obtain ⟨e1, e2⟩ := h
        subst e1; subst e2
        have := r2 es q rfl
        simp; omega

/-- **C46, reading**: for every received packet and position in it, decoding never reads outside the packet, and
if an address is found it has at most eight digipeaters and exactly seven bytes per sub address were used. -/
theorem C46_decode_safe (data : List UInt8) (pos port : Nat) (hp : pos ≤ data.length) (h64 : data.length < 2 ^ 64) :
    ∃ r, decodeAddr data pos data.length port = some r ∧
      ∀ a p, r = some (a, p) → p = pos + 7 * (2 + a.extra.length) ∧ p ≤ data.length ∧ a.extra.length ≤ 8 := by
  obtain ⟨rc, d, p, h1, h2, h3⟩ := decodeSub_safe data pos hp h64
  rw [decodeAddr, h1]
  simp only [Option.bind_eq_bind, Option.bind_some]
  cases rc with
  | inval => exact ⟨none, rfl, by simp⟩
  | remclose => exact ⟨none, rfl, by simp⟩
  | ok =>
    have hp7 := h3 (by simp)
    obtain ⟨rc', s, p', g1, g2, g3⟩ := decodeSub_safe data p h2 h64
    simp only [g1, Option.bind_some]
    cases rc' with
    | inval => exact ⟨none, rfl, by simp⟩
    | remclose =>
      refine ⟨_, rfl, ?_⟩
      intro a q h
      simp at h
      rw [← h.1, ← h.2]
      have := g3 (by simp)
      simp; omega
    | ok =>
      have hp7' := g3 (by simp)
      obtain ⟨r, r1, r2⟩ := decodeExtra_safe data h64 maxExtra p' g2
      simp only [r1, Option.bind_some]
      cases r with
      | none => exact ⟨none, rfl, by simp⟩
      | some q =>
        obtain ⟨es, q⟩ := q
        refine ⟨_, rfl, ?_⟩
        intro a q' h
        simp at h
        rw [← h.1, ← h.2]
        have := r2 es q rfl
        simp only [maxExtra] at this
        simp; omega

/-! #### Encoding -/

/-- The last byte of an encoded sub address, with the end mark or not. -/
def lastByte (a : Sub) (e : Bool) : UInt8 :=
  UInt8.ofNat (a.ssid * 2) ||| (if a.ch then 128 else 0) ||| (if e then 1 else 0)

/-- The first six bytes of an encoded sub address. -/
def callBytes (call : List UInt8) : List UInt8 :=
  (call.map fun b : UInt8 => b <<< 1) ++ List.replicate (6 - call.length) 64

theorem callBytes_length (call : List UInt8) (h : call.length ≤ 6) : (callBytes call).length = 6 := by
  simp [callBytes]; omega

theorem encodeSub_eq {a : Sub} {call : List UInt8} (h : WireOk a call) :
    encodeSub a = callBytes call ++ [lastByte a false] := by
  have : a.addr.take 6 = call ++ List.replicate (6 - call.length) 0 := by
    rw [h.addr, padded, List.take_append, List.take_of_length_le h.len]
    congr 1
    rw [List.take_replicate]
    congr 1
    have := h.len
    omega
  rw [encodeSub, this, cstr_append_zeros _ _ (fun c hc => (h.chars c hc).1)]
  simp [callBytes, lastByte]

theorem lastByte_facts : ∀ (n : Fin 16) (ch e : Bool),
    let b := UInt8.ofNat (n.val * 2) ||| (if ch then 128 else 0) ||| (if e then 1 else 0)
    ((b >>> 1) &&& 0xf).toNat = n.val ∧ ((b >>> 7) &&& 1 ≠ 0 ↔ ch = true) ∧ ((b >>> 5) &&& 1 ≠ 0 ↔ false = true) ∧
    ((b >>> 6) &&& 1 ≠ 0 ↔ false = true) ∧ ((b &&& 1 ≠ 0) ↔ e = true) := by decide +kernel

theorem callBytes_even (call : List UInt8) (h : ∀ c ∈ call, c ≠ 0 ∧ c ≠ 32 ∧ c < 128) :
    (callBytes call).all (fun b => b &&& 1 = 0) = true := by
  rw [List.all_eq_true]
  intro b hb
  simp only [callBytes, List.mem_append, List.mem_map] at hb
  rcases hb with ⟨c, hc, rfl⟩ | hb
  · simpa using ((byte_fact c).2.2.1 (h c hc).2.2).1
  · rw [List.mem_replicate] at hb; rw [hb.2]; decide

theorem callBytes_d1 (call : List UInt8) (h : ∀ c ∈ call, c ≠ 0 ∧ c ≠ 32 ∧ c < 128) :
    (callBytes call).map d1 = call ++ List.replicate (6 - call.length) 0 := by
  rw [callBytes, List.map_append, List.map_map, List.map_replicate]
  congr 1
  · rw [List.map_congr_left (g := id), List.map_id]
    intro c hc
    simp only [Function.comp, d1, ((byte_fact c).2.2.1 (h c hc).2.2).2, id]
    rw [if_neg (h c hc).2.1]

theorem decodeSub_encoded (data : List UInt8) (pos : Nat) (a : Sub) (call : List UInt8) (h : WireOk a call) (e : Bool)
    (r : List UInt8) (hd : data.drop pos = callBytes call ++ lastByte a e :: r) (h64 : data.length < 2 ^ 64) :
    decodeSub data pos data.length =
      some (if e then .remclose else .ok, { a with r1 := false, r2 := false, r3 := true }, pos + 7) := by
  have hlen : pos + 7 ≤ data.length := by
    have := congrArg List.length hd
    simp [callBytes_length call h.len] at this
    omega
  rw [decodeSub_spec data pos _ _ _ r (callBytes_length call h.len) hd hlen h64, callBytes_even call h.chars]
  have ff : ((lastByte a e >>> 1) &&& 0xf).toNat = a.ssid ∧ ((lastByte a e >>> 7) &&& 1 ≠ 0 ↔ a.ch = true) ∧
      ((lastByte a e >>> 5) &&& 1 ≠ 0 ↔ false = true) ∧ ((lastByte a e >>> 6) &&& 1 ≠ 0 ↔ false = true) ∧
      ((lastByte a e &&& 1 ≠ 0) ↔ e = true) := lastByte_facts ⟨a.ssid, h.ssid⟩ a.ch e
  obtain ⟨f1, f2, f3, f4, f5⟩ := ff
  simp only [if_true, subOf, callBytes_d1 call h.chars]
  have haddr : call ++ List.replicate (6 - call.length) 0 ++ [0] = a.addr := by
    rw [h.addr, padded, List.append_assoc]
    congr 1
    have := h.len
    rw [show 7 - call.length = (6 - call.length) + 1 by omega, List.replicate_succ']
  rw [haddr]
  rw [f1]
  simp only [Option.some.injEq, Prod.mk.injEq, Sub.mk.injEq, true_and, and_true]
  refine ⟨?_, Bool.eq_iff_iff.2 (decide_eq_true_iff.trans f2), Bool.eq_iff_iff.2 (decide_eq_true_iff.trans f3),
    Bool.eq_iff_iff.2 (decide_eq_true_iff.trans f4)⟩
  cases e
  · rw [if_neg (fun h => by simpa using f5.1 h)]; rfl
  · rw [if_pos (f5.2 rfl)]; rfl

/-- Bytes of several encoded sub addresses, the last with the end mark. -/
def wires : List (Sub × List UInt8) → List UInt8
  | [] => []
  | [x] => callBytes x.2 ++ [lastByte x.1 true]
  | x :: y :: t => callBytes x.2 ++ lastByte x.1 false :: wires (y :: t)

theorem markEnd_append (x : List UInt8) (b : UInt8) : markEnd (x ++ [b]) = x ++ [b ||| 1] := by
  simp [markEnd, List.set_append]

theorem markEnd_wires : ∀ (xs : List (Sub × List UInt8)), xs ≠ [] → (∀ x ∈ xs, WireOk x.1 x.2) →
    ∀ pre, markEnd (pre ++ xs.flatMap (fun x => encodeSub x.1)) = pre ++ wires xs := by
  intro xs
  induction xs with
  | nil => intro h; simp at h
  | cons x xs ih =>
    intro _ h pre
    have hx := h x (by simp)
    cases xs with
    | nil =>
      simp only [List.flatMap_cons, List.flatMap_nil, List.append_nil, wires, encodeSub_eq hx]
      rw [← List.append_assoc, markEnd_append]
      simp [lastByte]
    | cons y t =>
      have := ih (by simp) (fun z hz => h z (by simp at hz ⊢; right; exact hz)) (pre ++ encodeSub x.1)
      rw [List.flatMap_cons, ← List.append_assoc, this, wires, encodeSub_eq hx]
      simp

/-- What an encoded sub address is read back as: the reserved bits are lost. -/
def rd (a : Sub) : Sub := { a with r1 := false, r2 := false, r3 := true }

theorem drop_add_of_drop (data l r : List UInt8) (pos n : Nat) (h : data.drop pos = l ++ r) (hn : l.length = n) :
    data.drop (pos + n) = r := by
  subst hn
  rw [← List.drop_drop, h]
  simp

theorem decodeExtra_wires (data : List UInt8) (h64 : data.length < 2 ^ 64) : ∀ (xs : List (Sub × List UInt8)), xs ≠ [] →
    (∀ x ∈ xs, WireOk x.1 x.2) → ∀ n pos r, xs.length ≤ n → data.drop pos = wires xs ++ r →
    decodeExtra data data.length n pos = some (some (xs.map (fun x => rd x.1), pos + 7 * xs.length)) := by
  intro xs
  induction xs with
  | nil => intro h; simp at h
  | cons x xs ih =>
    intro _ h n pos r hn hd
    obtain ⟨n, rfl⟩ : ∃ k, n = k + 1 := ⟨n - 1, by simp at hn; omega⟩
    have hx := h x (by simp)
    cases xs with
    | nil =>
      rw [wires, List.append_assoc] at hd
      rw [decodeExtra, decodeSub_encoded data pos x.1 x.2 hx true r hd h64]
      rfl
    | cons y t =>
      rw [wires, List.append_assoc, List.cons_append] at hd
      have hd' : data.drop (pos + 7) = wires (y :: t) ++ r :=
        drop_add_of_drop data (callBytes x.2 ++ [lastByte x.1 false]) _ pos 7 (by rw [hd]; simp)
          (by simp [callBytes_length x.2 hx.len])
      have := ih (by simp) (fun z hz => h z (by simp at hz ⊢; right; exact hz)) n (pos + 7) r (by simp at hn ⊢; omega) hd'
      rw [decodeExtra, decodeSub_encoded data pos x.1 x.2 hx false _ hd h64]
      simp only [Bool.false_eq_true, if_false, Option.bind_eq_bind, Option.bind_some, this]
      simp [rd]; omega

/-- A whole address that can go on the wire. -/
structure AddrWire (a : Addr) : Prop where
  dest : ∃ c, WireOk a.dest c
  src : ∃ c, WireOk a.src c
  extra : ∀ e ∈ a.extra, ∃ c, WireOk e c
  nextra : a.extra.length ≤ 8

theorem withCalls (es : List Sub) (h : ∀ e ∈ es, ∃ c, WireOk e c) :
    ∃ xs : List (Sub × List UInt8), xs.map Prod.fst = es ∧ ∀ x ∈ xs, WireOk x.1 x.2 := by
  induction es with
  | nil => exact ⟨[], rfl, by simp⟩
  | cons e es ih =>
    obtain ⟨xs, h1, h2⟩ := ih (fun x hx => h x (by simp [hx]))
    obtain ⟨c, hc⟩ := h e (by simp)
    refine ⟨(e, c) :: xs, by simp [h1], ?_⟩
    intro x hx
    rcases List.mem_cons.1 hx with hx | hx
    · subst hx; exact hc
    · exact h2 x hx

theorem decodeAddr_src {data : List UInt8} {pos len port p1 p2 : Nat} {d x : Sub}
    (h1 : decodeSub data pos len = some (.ok, d, p1)) (h2 : decodeSub data p1 len = some (.remclose, x, p2)) :
    decodeAddr data pos len port = some (some (⟨port % 256, d, x, []⟩, p2)) := by
  unfold decodeAddr
  rewrite [h1, Option.bind_eq_bind, Option.bind_some]
  dsimp only
  rewrite [h2, Option.bind_eq_bind, Option.bind_some]
  dsimp only

theorem decodeAddr_extra {data : List UInt8} {pos len port p1 p2 p3 : Nat} {d x : Sub} {es : List Sub}
    (h1 : decodeSub data pos len = some (.ok, d, p1)) (h2 : decodeSub data p1 len = some (.ok, x, p2))
    (h3 : decodeExtra data len maxExtra p2 = some (some (es, p3))) :
    decodeAddr data pos len port = some (some (⟨port % 256, d, x, es⟩, p3)) := by
  unfold decodeAddr
  rewrite [h1, Option.bind_eq_bind, Option.bind_some]
  dsimp only
  rewrite [h2, Option.bind_eq_bind, Option.bind_some]
  dsimp only
  rewrite [h3, Option.bind_some]
  dsimp only

/-- **C46, round trip (what holds)**: for every valid address with at most eight digipeaters, encoding gives exactly
the announced number of bytes, and decoding them anywhere in a packet gives the same destination, source and
digipeaters (call signs, numbers and command/response/repeated flags, in order) and uses exactly those bytes.
Missing: the reserved bits (violated below). -/
theorem C46_roundtrip_partial (a : Addr) (h : AddrWire a) (pre post : List UInt8) (port : Nat) (hp : port < 256)
    (h64 : pre.length + post.length < 2 ^ 63) :
    ∃ w, encodeAddr a = some w ∧ encodeLen a = some w.length ∧ w.length = 7 * (2 + a.extra.length) ∧
      decodeAddr (pre ++ w ++ post) pre.length (pre ++ w ++ post).length port =
        some (some (⟨port, rd a.dest, rd a.src, a.extra.map rd⟩, pre.length + w.length)) := by
  obtain ⟨cd, hd⟩ := h.dest
  obtain ⟨cs, hs⟩ := h.src
  obtain ⟨xs, hx1, hx2⟩ := withCalls a.extra h.extra
  have hall : ∀ x ∈ (a.dest, cd) :: (a.src, cs) :: xs, WireOk x.1 x.2 := by
    intro x hx
    simp only [List.mem_cons] at hx
    rcases hx with hx | hx | hx
    · subst hx; exact hd
    · subst hx; exact hs
    · exact hx2 x hx
  have hlenx : xs.length = a.extra.length := by rw [← hx1]; simp
  have henc : encodeAddr a = some (wires ((a.dest, cd) :: (a.src, cs) :: xs)) := by
    have := markEnd_wires ((a.dest, cd) :: (a.src, cs) :: xs) (by simp) hall []
    rw [encodeAddr, if_pos h.nextra, ← hx1]
    simp only [List.nil_append, List.flatMap_cons] at this
    rw [← this, List.append_assoc, List.flatMap_map]
  have wlen : ∀ ys : List (Sub × List UInt8), (∀ x ∈ ys, WireOk x.1 x.2) → (wires ys).length = 7 * ys.length := by
    intro ys
    induction ys with
    | nil => intro _; rfl
    | cons y ys ih =>
      intro hy
      have hl := callBytes_length y.2 (hy y (by simp)).len
      cases ys with
      | nil => simp [wires, hl]
      | cons z t =>
        have := ih (fun x hx => hy x (by simp at hx ⊢; right; exact hx))
        simp only [wires, List.length_append, List.length_cons, hl] at this ⊢
        omega
  have hw := wlen _ hall
  simp only [List.length_cons, hlenx] at hw
  refine ⟨_, henc, ?_, by rw [hw]; omega, ?_⟩
  · rw [encodeLen, if_pos h.nextra, hw]; congr 1; omega
  · have hn := h.nextra
    rw [hw]
    have hlen : (pre ++ wires ((a.dest, cd) :: (a.src, cs) :: xs) ++ post).length < 2 ^ 64 := by
      simp only [List.length_append, hw]; omega
    have hdrop : (pre ++ wires ((a.dest, cd) :: (a.src, cs) :: xs) ++ post).drop pre.length =
        callBytes cd ++ lastByte a.dest false :: (wires ((a.src, cs) :: xs) ++ post) := by
      rw [List.append_assoc, List.drop_left]
      simp [wires]
    generalize pre ++ wires ((a.dest, cd) :: (a.src, cs) :: xs) ++ post = data at *
    have hdrop2 : data.drop (pre.length + 7) = wires ((a.src, cs) :: xs) ++ post :=
      drop_add_of_drop data (callBytes cd ++ [lastByte a.dest false]) _ _ 7 (by rw [hdrop]; simp)
        (by simp [callBytes_length cd hd.len])
    have hdec := decodeSub_encoded data pre.length a.dest cd hd false _ hdrop hlen
    rw [if_neg (by decide)] at hdec
    cases xs with
    | nil =>
      rw [wires, List.append_assoc] at hdrop2
      have hsrc := decodeSub_encoded data _ a.src cs hs true post hdrop2 hlen
      rw [if_pos rfl] at hsrc
      rw [decodeAddr_src hdec hsrc, Nat.mod_eq_of_lt hp]
      simp at hx1
      simp [hx1, rd]
    | cons x t =>
      rw [wires, List.append_assoc, List.cons_append] at hdrop2
      have hdrop3 : data.drop (pre.length + 7 + 7) = wires (x :: t) ++ post :=
        drop_add_of_drop data (callBytes cs ++ [lastByte a.src false]) _ _ 7 (by rw [hdrop2]; simp)
          (by simp [callBytes_length cs hs.len])
      have hsrc := decodeSub_encoded data _ a.src cs hs false _ hdrop2 hlen
      rw [if_neg (by decide)] at hsrc
      have hext := decodeExtra_wires data hlen (x :: t) (by simp) hx2 maxExtra _ post (by rw [hlenx]; exact hn) hdrop3
      rw [decodeAddr_extra hdec hsrc hext, Nat.mod_eq_of_lt hp, ← hx1, List.map_map]
      simp only [List.length_cons] at hlenx
      congr 3
      · simp only [List.length_cons, List.length_map]; omega

/-- **C46 is violated, reserved bits**: for every valid address with a set reserved bit (all addresses parsed from
text with a number have them, as the standard asks) what is decoded differs from what was encoded. -/
theorem C46_reserved_violated (a : Addr) (h : AddrWire a) (hr : a.dest.r1 = true) (b : Addr) (n : Nat) (w : List UInt8)
    (hw : encodeAddr a = some w) (hb : decodeAddr w 0 w.length a.tncPort = some (some (b, n))) (hp : a.tncPort < 256) :
    b.dest.r1 = false ∧ b ≠ a := by
  obtain ⟨w', e1, _, _, e4⟩ := C46_roundtrip_partial a h [] [] a.tncPort hp (by simp)
  rw [hw] at e1
  simp at e1
  subst e1
  simp only [List.nil_append, List.append_nil, List.length_nil] at e4
  rw [hb] at e4
  simp at e4
  refine ⟨by rw [e4.1]; rfl, ?_⟩
  intro e
  rw [e] at e4
  have := congrArg (fun x : Addr => x.dest.r1) e4.1
  simp [rd, hr] at this

/-- **C46 is violated, malformed call signs**: a call sign field with characters behind a space is accepted, and
is taken for the shorter call sign. -/
theorem C46_inner_space_violated :
    ∃ w1 w2 : List UInt8, w1 ≠ w2 ∧ ∃ a b n, decodeAddr w1 0 w1.length 0 = some (some (a, n)) ∧
      decodeAddr w2 0 w2.length 0 = some (some (b, n)) ∧ addrEqual a b true true = true := by
  refine ⟨[130, 64, 132, 64, 64, 64, 0, 130, 64, 64, 64, 64, 64, 1], [130, 64, 64, 64, 64, 64, 0, 130, 64, 64, 64, 64, 64, 1],
    by decide, ⟨0, ⟨[65, 0, 66, 0, 0, 0, 0], 0, false, false, false, true⟩, ⟨[65, 0, 0, 0, 0, 0, 0], 0, false, false, false, true⟩, []⟩,
    ⟨0, ⟨[65, 0, 0, 0, 0, 0, 0], 0, false, false, false, true⟩, ⟨[65, 0, 0, 0, 0, 0, 0], 0, false, false, false, true⟩, []⟩,
    14, ?_, ?_, ?_⟩ <;> decide +kernel

theorem exA_wire : AddrWire exA :=
  ⟨let ⟨c, h⟩ := exA_ok.dest; ⟨c, h.wire⟩, let ⟨c, h⟩ := exA_ok.src; ⟨c, h.wire⟩,
    fun e he => let ⟨c, h⟩ := exA_ok.extra e he; ⟨c, h.wire⟩, exA_ok.nextra⟩

example : encodeAddr exA = some [130, 132, 98, 134, 136, 138, 0, 156, 96, 134, 130, 152, 152, 30,
    174, 146, 136, 138, 100, 64, 131] := by decide +kernel

example : ∃ w, encodeAddr exA = some w ∧ decodeAddr ([9, 9] ++ w ++ [7]) 2 24 3 =
    some (some (⟨3, rd exA.dest, rd exA.src, exA.extra.map rd⟩, 23)) := by
  obtain ⟨w, h1, _, h3, h4⟩ := C46_roundtrip_partial exA exA_wire [9, 9] [7] 3 (by decide) (by decide)
  refine ⟨w, h1, ?_⟩
  have : w.length = 21 := h3
  simpa [this] using h4

end Gensio.Ax25Addr
