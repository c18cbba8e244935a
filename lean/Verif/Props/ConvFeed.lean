import Verif.Props.ConvSize

/-!
# Feeding the decoder (C64) and the whole way from bytes to bytes (C44)
-/

namespace Gensio.Convcode

/-! ### The input as a list -/

/-- The input bits with their uncertainties. -/
def inList (bytes : List UInt8) (unc : List Nat) (size : Nat) : List (Nat × Nat) :=
  (List.range size).map fun i => ((getBit bytes i).getD 0, unc.getD i 0)

/-- The arrays are as long as the size says. -/
def InOk (soft : Soft) (bytes : List UInt8) (unc : List Nat) (size : Nat) : Prop :=
  size ≤ 8 * bytes.length ∧ (soft ≠ none → size ≤ unc.length)

/-- The uncertainties with that of a received bit. -/
def usCons (soft : Soft) (us : List Nat) (u : Nat) : List Nat := match soft with | none => us | some _ => us ++ [u]

/-- `extractLoop` on a list. -/
def xl (soft : Soft) (punc : List Bool) : Nat → Nat → Nat → List Nat → List (Nat × Nat) → Nat →
    Option (Nat × Nat × List Nat × List (Nat × Nat) × Nat)
  | 0, opos, v, us, ins, pp => some (opos, v, us, ins, pp)
  | todo + 1, opos, v, us, ins, pp =>
    match keptAt punc pp, ins with
    | none, _ => none
    | some false, ins => xl soft punc todo (opos + 1) v (usPunc soft us) ins (puncStep punc pp)
    | some true, [] => some (opos, v, us, [], pp)
    | some true, x :: ins =>
      xl soft punc todo (opos + 1) (v ||| (x.1 <<< opos)) (usCons soft us x.2) ins (puncStep punc pp)

theorem inList_drop (bytes : List UInt8) (unc : List Nat) (size curr : Nat) (h : curr < size) :
    (inList bytes unc size).drop curr =
      ((getBit bytes curr).getD 0, unc.getD curr 0) :: (inList bytes unc size).drop (curr + 1) := by
  rw [List.drop_eq_getElem_cons (by simpa [inList] using h)]
  simp [inList]

theorem extractLoop_xl (soft : Soft) (punc : List Bool) (bytes : List UInt8) (unc : List Nat) (size : Nat)
    (hok : InOk soft bytes unc size) (todo : Nat) : ∀ (opos v : Nat) (us : List Nat) (curr pp : Nat), curr ≤ size →
    (xl soft punc todo opos v us ((inList bytes unc size).drop curr) pp = none ∧
      extractLoop soft punc bytes unc size todo opos v us curr pp = none) ∨
    ∃ o v' us' curr' pp', curr' ≤ size ∧
      xl soft punc todo opos v us ((inList bytes unc size).drop curr) pp =
        some (o, v', us', (inList bytes unc size).drop curr', pp') ∧
      extractLoop soft punc bytes unc size todo opos v us curr pp = some (o, v', us', curr', pp') := by
  induction todo with
  | zero => intro opos v us curr pp hc; exact Or.inr ⟨opos, v, us, curr, pp, hc, rfl, rfl⟩
  | succ todo ih =>
    intro opos v us curr pp hc
    simp only [xl, extractLoop]
    cases hp : keptAt punc pp with
    | none => exact Or.inl ⟨rfl, rfl⟩
    | some p =>
      cases p with
      | false => exact ih _ _ _ _ _ hc
      | true =>
        by_cases hlt : curr < size
        · have hb : ∃ b, getBit bytes curr = some b := by
            have : curr / 8 < bytes.length := by have := hok.1; omega
            exact ⟨_, by rw [getBit, List.getElem?_eq_getElem this]; rfl⟩
          obtain ⟨b, hb⟩ := hb
          have hu : usIn soft us unc curr = some (usCons soft us (unc.getD curr 0)) := by
            cases soft with
            | none => rfl
            | some u =>
              have hl : curr < unc.length := Nat.lt_of_lt_of_le hlt (hok.2 (by simp))
              rw [usIn, List.getD_eq_getElem?_getD, List.getElem?_eq_getElem hl]; rfl
          rw [inList_drop bytes unc size curr hlt]
          simp only [if_pos hlt, hb, hu, Option.getD_some]
          exact ih _ _ _ _ _ hlt
        · have : curr = size := by omega
          subst this
          have hnil : (inList bytes unc curr).drop curr = [] := by simp [inList]
          rw [hnil]
          simp only [if_neg hlt]
          exact Or.inr ⟨opos, v, us, curr, pp, Nat.le_refl _, by rw [hnil], rfl⟩

/-- No leftover. -/
def In.Clean (i : In) : Prop := i.nleft = 0 ∧ i.left = 0 ∧ i.uleft = []

/-- `extractSym` on a list. -/
def xs (c : Code) (soft : Soft) (punc : List Bool) (ins : List (Nat × Nat)) (i : In) :
    Option (In × List (Nat × Nat) × Option Sym) :=
  if i.nleft < c.n then
    match xl soft punc (c.n - i.nleft) i.nleft i.left i.uleft ins i.ppos with
    | none => none
    | some (opos, v, us, ins, pp) =>
      if opos < c.n then some (⟨opos, v, us, pp⟩, ins, none) else some (⟨0, 0, [], pp⟩, ins, some ⟨v, us⟩)
  else none

theorem extractSym_xs (c : Code) (hn : 0 < c.n) (soft : Soft) (punc : List Bool) (lo : Bool) (bytes : List UInt8)
    (unc : List Nat) (size : Nat) (hok : InOk soft bytes unc size) (i : In) (curr : Nat) (hc : curr ≤ size)
    (hi : lo = false → i.Clean) :
    (xs c soft punc ((inList bytes unc size).drop curr) i = none ∧
      extractSym c soft punc lo bytes unc size i curr = none) ∨
    ∃ i' curr' o, curr' ≤ size ∧
      xs c soft punc ((inList bytes unc size).drop curr) i = some (i', (inList bytes unc size).drop curr', o) ∧
      extractSym c soft punc lo bytes unc size i curr = some (i', curr', o) := by
  obtain ⟨nleft, left, uleft, ppos⟩ := i
  have e : extractSym c soft punc lo bytes unc size ⟨nleft, left, uleft, ppos⟩ curr =
      if ¬ nleft < c.n then none else
        (extractLoop soft punc bytes unc size (c.n - nleft) nleft left uleft curr ppos).bind fun r =>
          if r.1 < c.n then some (⟨r.1, r.2.1, r.2.2.1, r.2.2.2.2⟩, r.2.2.2.1, none)
          else some (⟨0, 0, [], r.2.2.2.2⟩, r.2.2.2.1, some ⟨r.2.1, r.2.2.1⟩) := by
    cases lo with
    | true => simp only [extractSym, if_true, true_and]; rfl
    | false =>
      obtain ⟨z1, z2, z3⟩ := hi rfl
      simp only at z1 z2 z3
      subst z1 z2 z3
      rw [if_neg (by omega)]
      rfl
  rw [e, xs]
  by_cases hlt : nleft < c.n
  · simp only [if_pos hlt, if_neg (not_not_intro hlt)]
    rcases extractLoop_xl soft punc bytes unc size hok (c.n - nleft) nleft left uleft curr ppos hc with
      ⟨h1, h2⟩ | ⟨o, v, us, c', pp, h0, h1, h2⟩
    · rw [h1, h2]; exact Or.inl ⟨rfl, rfl⟩
    · rw [h1, h2]
      simp only [Option.bind_some]
      by_cases ho : o < c.n
      · rw [if_pos ho, if_pos ho]; exact Or.inr ⟨_, _, _, h0, rfl, rfl⟩
      · rw [if_neg ho, if_neg ho]; exact Or.inr ⟨_, _, _, h0, rfl, rfl⟩
  · exact Or.inl (by simp [hlt])

/-- `dataLoop` and `symsOf` on a list. -/
def dl (c : Code) (soft : Soft) (punc : List Bool) : Nat → List (Nat × Nat) → In → List Sym → Option (In × List Sym)
  | 0, _, _, _ => none
  | fuel + 1, ins, i, acc =>
    match xs c soft punc ins i with
    | none => none
    | some (i, _, none) => some (i, acc)
    | some (i, ins, some s) => dl c soft punc fuel ins i (acc ++ [s])

theorem xs_clean (c : Code) (soft : Soft) (punc : List Bool) (ins ins' : List (Nat × Nat)) (i i' : In) (s : Sym)
    (h : xs c soft punc ins i = some (i', ins', some s)) : i'.Clean := by
  rw [xs] at h
  split at h
  · split at h
    · simp at h
    · split at h
      · simp at h
      · simp only [Option.some.injEq, Prod.mk.injEq] at h
        rw [← h.1]; exact ⟨rfl, rfl, rfl⟩
  · simp at h

theorem dataLoop_dl (c : Code) (hn : 0 < c.n) (soft : Soft) (punc : List Bool) (bytes : List UInt8) (unc : List Nat)
    (size : Nat) (hok : InOk soft bytes unc size) (fuel : Nat) : ∀ (i : In) (curr : Nat) (acc : List Sym),
    curr ≤ size → i.Clean → dataLoop c soft punc bytes unc size fuel i curr acc =
      dl c soft punc fuel ((inList bytes unc size).drop curr) i acc := by
  induction fuel with
  | zero => intro i curr acc _ _; rfl
  | succ fuel ih =>
    intro i curr acc hc hi
    rw [dataLoop, dl]
    rcases extractSym_xs c hn soft punc false bytes unc size hok i curr hc (fun _ => hi) with
      ⟨h1, h2⟩ | ⟨i', c', o, h0, h1, h2⟩
    · rw [h1, h2]; rfl
    · rw [h1, h2]
      cases o with
      | none => rfl
      | some s => exact ih _ _ _ h0 (xs_clean c soft punc _ _ _ _ _ h1)

theorem symsOf_dl (c : Code) (hn : 0 < c.n) (soft : Soft) (punc : List Bool) (fuel : Nat) (bytes : List UInt8)
    (unc : List Nat) (size : Nat) (hok : InOk soft bytes unc size) (i : In) :
    symsOf c soft punc fuel bytes unc size i = dl c soft punc (fuel + 1) (inList bytes unc size) i [] := by
  rw [symsOf, dl]
  rcases extractSym_xs c hn soft punc true bytes unc size hok i 0 (Nat.zero_le _) (fun h => by simp at h) with
    ⟨h1, h2⟩ | ⟨i', c', o, h0, h1, h2⟩
  · rw [List.drop_zero] at h1
    rw [h1, h2]; rfl
  · rw [List.drop_zero] at h1
    rw [h1, h2]
    cases o with
    | none => rfl
    | some s => exact dataLoop_dl c hn soft punc bytes unc size hok fuel i' c' [s] h0 (xs_clean c soft punc _ _ _ _ _ h1)

/-! ### Chunks -/

theorem xl_append (soft : Soft) (punc : List Bool) (b : List (Nat × Nat)) (todo : Nat) :
    ∀ (opos v : Nat) (us : List Nat) (a : List (Nat × Nat)) (pp : Nat) (o v' : Nat) (us' : List Nat)
      (ins' : List (Nat × Nat)) (pp' : Nat), xl soft punc todo opos v us a pp = some (o, v', us', ins', pp') →
    o ≤ opos + todo ∧ opos ≤ o ∧
      (o = opos + todo → xl soft punc todo opos v us (a ++ b) pp = some (o, v', us', ins' ++ b, pp')) ∧
      (o < opos + todo → ins' = [] ∧
        xl soft punc todo opos v us (a ++ b) pp = xl soft punc (opos + todo - o) o v' us' b pp') := by
  induction todo with
  | zero =>
    intro opos v us a pp o v' us' ins' pp' h
    simp only [xl, Option.some.injEq, Prod.mk.injEq] at h
    obtain ⟨rfl, rfl, rfl, rfl, rfl⟩ := h
    exact ⟨by omega, by omega, fun _ => rfl, fun h => by omega⟩
  | succ todo ih =>
    intro opos v us a pp o v' us' ins' pp' h
    simp only [xl] at h ⊢
    cases hp : keptAt punc pp with
    | none => rw [hp] at h; simp at h
    | some p =>
      rw [hp] at h
      cases p with
      | false =>
        simp only at h ⊢
        obtain ⟨h1, h2, h3, h4⟩ := ih _ _ _ _ _ _ _ _ _ _ h
        refine ⟨by omega, by omega, fun e => h3 (by omega), fun e => ?_⟩
        have := h4 (by omega)
        rw [show opos + (todo + 1) - o = opos + 1 + todo - o by omega]
        exact this
      | true =>
        cases a with
        | nil =>
          simp only [Option.some.injEq, Prod.mk.injEq] at h
          obtain ⟨rfl, rfl, rfl, rfl, rfl⟩ := h
          refine ⟨by omega, by omega, fun e => by omega, fun _ => ⟨rfl, ?_⟩⟩
          rw [show opos + (todo + 1) - opos = todo + 1 by omega]
          simp only [List.nil_append, xl, hp]
        | cons x a =>
          simp only [List.cons_append] at h ⊢
          obtain ⟨h1, h2, h3, h4⟩ := ih _ _ _ _ _ _ _ _ _ _ h
          refine ⟨by omega, by omega, fun e => h3 (by omega), fun e => ?_⟩
          have := h4 (by omega)
          rw [show opos + (todo + 1) - o = opos + 1 + todo - o by omega]
          exact this

theorem xs_append (c : Code) (soft : Soft) (punc : List Bool) (a b : List (Nat × Nat)) (i i1 : In)
    (rest : List (Nat × Nat)) (o : Option Sym) (h : xs c soft punc a i = some (i1, rest, o)) :
    (∀ s, o = some s → xs c soft punc (a ++ b) i = some (i1, rest ++ b, some s)) ∧
      (o = none → xs c soft punc (a ++ b) i = xs c soft punc b i1) := by
  rw [xs] at h
  by_cases hlt : i.nleft < c.n
  · rw [if_pos hlt] at h
    cases hx : xl soft punc (c.n - i.nleft) i.nleft i.left i.uleft a i.ppos with
    | none => rw [hx] at h; simp at h
    | some r =>
      obtain ⟨o', v', us', ins', pp'⟩ := r
      rw [hx] at h
      simp only at h
      obtain ⟨h1, h2, h3, h4⟩ := xl_append soft punc b _ _ _ _ _ _ _ _ _ _ _ hx
      by_cases ho : o' < c.n
      · rw [if_pos ho] at h
        simp only [Option.some.injEq, Prod.mk.injEq] at h
        obtain ⟨rfl, rfl, rfl⟩ := h
        refine ⟨fun s hs => by simp at hs, fun _ => ?_⟩
        rw [xs, xs, if_pos hlt, (h4 (by omega)).2, show i.nleft + (c.n - i.nleft) - o' = c.n - o' by omega]
        simp only [if_pos ho]
      · rw [if_neg ho] at h
        simp only [Option.some.injEq, Prod.mk.injEq] at h
        obtain ⟨rfl, rfl, rfl⟩ := h
        refine ⟨fun s hs => ?_, fun hn => by simp at hn⟩
        rw [xs, if_pos hlt, h3 (by omega)]
        simp only
        rw [if_neg ho, hs]
  · rw [if_neg hlt] at h; simp at h

theorem dl_acc (c : Code) (soft : Soft) (punc : List Bool) (fuel : Nat) : ∀ (ins : List (Nat × Nat)) (i i2 : In)
    (acc s : List Sym), dl c soft punc fuel ins i acc = some (i2, s) →
    ∃ t, s = acc ++ t ∧ ∀ f' acc', fuel ≤ f' → dl c soft punc f' ins i acc' = some (i2, acc' ++ t) := by
  induction fuel with
  | zero => intro ins i i2 acc s h; simp [dl] at h
  | succ fuel ih =>
    intro ins i i2 acc s h
    rw [dl] at h
    cases hx : xs c soft punc ins i with
    | none => rw [hx] at h; simp at h
    | some r =>
      obtain ⟨i1, rest, o⟩ := r
      rw [hx] at h
      cases o with
      | none =>
        simp only [Option.some.injEq, Prod.mk.injEq] at h
        obtain ⟨rfl, rfl⟩ := h
        refine ⟨[], by simp, ?_⟩
        intro f' acc' hf
        obtain ⟨g, rfl⟩ : ∃ g, f' = g + 1 := ⟨f' - 1, by omega⟩
        rw [dl, hx]
        simp
      | some y =>
        obtain ⟨t, ht, hall⟩ := ih _ _ _ _ _ h
        refine ⟨y :: t, by simp [ht], ?_⟩
        intro f' acc' hf
        obtain ⟨g, rfl⟩ : ∃ g, f' = g + 1 := ⟨f' - 1, by omega⟩
        rw [dl, hx]
        simp only
        rw [hall g _ (by omega)]
        simp

theorem dl_append (c : Code) (soft : Soft) (punc : List Bool) (b : List (Nat × Nat)) (i1 i2 : In) (s2 : List Sym)
    (f2 : Nat) (h2 : dl c soft punc f2 b i1 [] = some (i2, s2)) (fuel : Nat) :
    ∀ (a : List (Nat × Nat)) (i : In) (acc s1 : List Sym), dl c soft punc fuel a i acc = some (i1, s1) →
      dl c soft punc (fuel + f2) (a ++ b) i acc = some (i2, s1 ++ s2) := by
  induction fuel with
  | zero => intro a i acc s1 h; simp [dl] at h
  | succ fuel ih =>
    intro a i acc s1 h
    rw [dl] at h
    rw [show fuel + 1 + f2 = (fuel + f2) + 1 by omega]
    cases hx : xs c soft punc a i with
    | none => rw [hx] at h; simp at h
    | some r =>
      obtain ⟨i', rest, o⟩ := r
      rw [hx] at h
      have hap := xs_append c soft punc a b i i' rest o hx
      cases o with
      | some s =>
        rw [dl, hap.1 s rfl]
        exact ih _ _ _ _ h
      | none =>
        simp only [Option.some.injEq, Prod.mk.injEq] at h
        obtain ⟨rfl, rfl⟩ := h
        obtain ⟨t, ht, hall⟩ := dl_acc c soft punc f2 _ _ _ _ _ h2
        have := hall (fuel + f2 + 1) acc (by omega)
        rw [dl] at this ⊢
        rw [hap.2 rfl, this, ht, List.nil_append]

theorem decodeSyms_append (c : Code) (soft : Soft) (tsize : Nat) (a b : List Sym) : ∀ d,
    decodeSyms c soft tsize (a ++ b) d = (decodeSyms c soft tsize a d).bind fun d => decodeSyms c soft tsize b d := by
  induction a with
  | nil => intro d; rfl
  | cons s a ih =>
    intro d
    rw [List.cons_append, decodeSyms, decodeSyms]
    cases decodeSym c soft tsize d s with
    | none => rfl
    | some d' => exact ih d'

/-- **C64**: decoding does not depend on how the received bits are cut into pieces: if two pieces are accepted one
after the other, the bits given at once lead to the same decoder state; hard and soft decisions, with and without
puncturing, at every bit position. -/
theorem C64_chunks (c : Code) (hn : 0 < c.n) (soft : Soft) (punc : List Bool) (tsize f1 f2 : Nat)
    (b1 b2 b3 : List UInt8) (u1 u2 u3 : List Nat) (n1 n2 : Nat) (F F1 F2 : Full) (o1 : InOk soft b1 u1 n1)
    (o2 : InOk soft b2 u2 n2) (o3 : InOk soft b3 u3 (n1 + n2))
    (hcat : inList b3 u3 (n1 + n2) = inList b1 u1 n1 ++ inList b2 u2 n2)
    (h1 : decodeData c soft punc tsize f1 b1 u1 n1 F = some F1)
    (h2 : decodeData c soft punc tsize f2 b2 u2 n2 F1 = some F2) :
    decodeData c soft punc tsize (f1 + f2 + 1) b3 u3 (n1 + n2) F = some F2 := by
  rw [decodeData, symsOf_dl c hn soft punc _ _ _ _ o1] at h1
  rw [decodeData, symsOf_dl c hn soft punc _ _ _ _ o2] at h2
  rw [decodeData, symsOf_dl c hn soft punc _ _ _ _ o3, hcat]
  cases e1 : dl c soft punc (f1 + 1) (inList b1 u1 n1) F.inp [] with
  | none => rw [e1] at h1; simp at h1
  | some r1 =>
    rw [e1] at h1
    simp only [Option.bind_eq_bind, Option.bind_some] at h1
    cases d1 : decodeSyms c soft tsize r1.2 F.dec with
    | none => rw [d1] at h1; simp at h1
    | some D1 =>
      rw [d1] at h1
      simp only [Option.bind_some, Option.some.injEq] at h1
      subst h1
      cases e2 : dl c soft punc (f2 + 1) (inList b2 u2 n2) r1.1 [] with
      | none => simp only [e2] at h2; simp at h2
      | some r2 =>
        simp only [e2, Option.bind_eq_bind, Option.bind_some] at h2
        have := dl_append c soft punc _ r1.1 r2.1 r2.2 (f2 + 1) e2 (f1 + 1) _ F.inp [] r1.2 e1
        rw [show f1 + f2 + 1 + 1 = f1 + 1 + (f2 + 1) by omega, this]
        simp only [Option.bind_eq_bind, Option.bind_some]
        rw [decodeSyms_append, d1]
        exact h2

/-- Three bits and five bits of a byte, two bits per symbol: the symbol in the middle is put together. -/
example : symsOf code75 none [] 20 [0x1b] [] 8 In.init = some (⟨0, 0, [], 0⟩, [⟨3, []⟩, ⟨2, []⟩, ⟨1, []⟩, ⟨0, []⟩]) := by
  decide +kernel
example : symsOf code75 none [] 20 [0x03] [] 3 In.init = some (⟨1, 0, [], 0⟩, [⟨3, []⟩]) := by decide +kernel
example : symsOf code75 none [] 20 [0x03] [] 5 ⟨1, 0, [], 0⟩ =
    some (⟨0, 0, [], 0⟩, [⟨2, []⟩, ⟨1, []⟩, ⟨0, []⟩]) := by decide +kernel
example : inList [0x1b] [] 8 = inList [0x03] [] 3 ++ inList [0x03] [] 5 := by decide +kernel

end Gensio.Convcode
