import Verif.Props.Hdlc
/-!
# HDLC working message table: C54
-/
namespace Gensio.Hdlc
open Gensio.Crc

/-! ### One step of one working message -/

/-- Number of slots in use. -/
def used (ws : List W) : Nat := ws.countP (·.inUse)

def clearW (w : W) : W := { w with rd := [], unc := 0 }

theorem used_set (ws : List W) : ∀ (i : Nat) (w w' : W), ws[i]? = some w →
    used (ws.set i w') + (if w.inUse then 1 else 0) = used ws + (if w'.inUse then 1 else 0) := by
  induction ws with
  | nil => intro i w w' h; simp at h
  | cons x ws ih =>
    intro i w w' h
    cases i with
    | zero =>
      simp at h; subst h
      simp only [used, List.set_cons_zero, List.countP_cons]; omega
    | succ i =>
      have := ih i w w' (by simpa using h)
      simp only [used, List.set_cons_succ, List.countP_cons] at this ⊢; omega

theorem used_clear (ws : List W) : used (ws.map clearW) = used ws := by
  simp only [used, List.countP_map]; rfl

theorem used_pos (ws : List W) (i : Nat) (w : W) (h : ws[i]? = some w) (hu : w.inUse = true) : 1 ≤ used ws := by
  have := used_set ws i w { w with inUse := false } h
  simp [hu] at this; omega

/-- What `stepW` does to the table: slot `i` makes its step or is given up; the others stay, or are
all cleared. -/
theorem stepW_slots (c : Cfg) (f : Rx) (i : Nat) (bit : Bool) (w : W) (h : f.ws[i]? = some w) (hu : w.inUse = true) :
    ∃ (clr : Bool) (w' : W), (stepW c f i bit).ws = ((if clr then f.ws.map clearW else f.ws)).set i w' ∧
      SameQ (stepW c f i bit) (addMsg f (step1 c w bit).2) ∧
      ((w' = (step1 c w bit).1 ∧ (stepW c f i bit).curW = f.curW) ∨
       (w'.inUse = false ∧ w'.rd = w.rd ∧ f.curW ≠ 1 ∧ (stepW c f i bit).curW = f.curW - 1)) := by
  obtain ⟨ws, cw, gf, sl, dn, dc⟩ := f
  simp only at h
  have hi : i < ws.length := by
    rcases Nat.lt_or_ge i ws.length with h' | h'
    · exact h'
    · rw [List.getElem?_eq_none h'] at h; simp at h
  obtain ⟨iu, nw, un, on, st, cu, bp, rd⟩ := w
  simp only at hu
  subst hu
  simp only [stepW, h, step1, switch]
  cases st with
  | search0 => exact ⟨false, _, rfl, ⟨rfl, rfl, rfl⟩, Or.inl ⟨rfl, by first | rfl | trivial⟩⟩
  | first0 => exact ⟨false, _, rfl, ⟨rfl, rfl, rfl⟩, Or.inl ⟨rfl, by first | rfl | trivial⟩⟩
  | pre1 => exact ⟨false, _, rfl, ⟨rfl, rfl, rfl⟩, Or.inl ⟨rfl, by first | rfl | trivial⟩⟩
  | last0 => exact ⟨false, _, rfl, ⟨rfl, rfl, rfl⟩, Or.inl ⟨rfl, by first | rfl | trivial⟩⟩
  | inMsg =>
    by_cases h5 : on = 5
    · simp only [h5, if_true]
      exact ⟨false, _, rfl, ⟨rfl, rfl, rfl⟩, Or.inl ⟨rfl, by first | rfl | trivial⟩⟩
    · simp only [h5, if_false]
      by_cases h7 : bp = 7
      · simp only [h7, if_true, newByte]
        by_cases hl : rd.length ≥ c.maxRead
        · simp only [if_pos hl, dropW, Bool.false_and, Bool.false_eq_true, if_false]
          by_cases hc : cw = 1
          · simp only [hc, if_true]
            exact ⟨false, _, rfl, ⟨rfl, rfl, rfl⟩, Or.inl ⟨rfl, by first | rfl | trivial⟩⟩
          · simp only [hc, if_false]
            exact ⟨false, _, rfl, ⟨rfl, rfl, rfl⟩, Or.inr ⟨rfl, rfl, by first | exact hc | simpa using hc, by first | rfl | trivial⟩⟩
        · simp only [if_neg hl]
          exact ⟨false, _, rfl, ⟨rfl, rfl, rfl⟩, Or.inl ⟨rfl, by first | rfl | trivial⟩⟩
      · simp only [h7, if_false]
        exact ⟨false, _, rfl, ⟨rfl, rfl, rfl⟩, Or.inl ⟨rfl, by first | rfl | trivial⟩⟩
  | postLast0 =>
    cases bit with
    | true =>
      simp only [if_true, dropW, Bool.false_and, Bool.false_eq_true, if_false]
      by_cases hc : cw = 1
      · simp only [hc, if_true]
        exact ⟨false, _, rfl, ⟨rfl, rfl, rfl⟩, Or.inl ⟨rfl, by first | rfl | trivial⟩⟩
      · simp only [hc, if_false]
        exact ⟨false, _, rfl, ⟨rfl, rfl, rfl⟩, Or.inr ⟨rfl, rfl, by first | exact hc | simpa using hc, by first | rfl | trivial⟩⟩
    | false =>
      simp only [Bool.false_eq_true, if_false, newMessage]
      have hmod : ∀ (l : List W) (x : W) (g : W → W), i < l.length → (l.set i x).modify i g = l.set i (g x) := by
        intro l x g hl
        apply List.ext_getElem?
        intro j
        rw [List.getElem?_modify]
        by_cases hj : i = j
        · subst hj; simp [hl]
        · simp [hj]
      cases hm : checkMsg c ⟨true, false, un, 0, .postLast0, cu, bp, rd⟩ with
      | none =>
        simp only [dropW, addMsg]
        by_cases hg : (true && !gf) = true
        · simp only [if_pos hg, hmod _ _ _ hi]
          exact ⟨false, _, rfl, ⟨rfl, rfl, rfl⟩, Or.inl ⟨rfl, by first | rfl | trivial⟩⟩
        · simp only [if_neg hg]
          by_cases hc : cw = 1
          · simp only [hc, if_true, hmod _ _ _ hi]
            exact ⟨false, _, rfl, ⟨rfl, rfl, rfl⟩, Or.inl ⟨rfl, by first | rfl | trivial⟩⟩
          · simp only [hc, if_false, hmod _ _ _ hi]
            exact ⟨false, _, rfl, ⟨rfl, rfl, rfl⟩, Or.inr ⟨rfl, rfl, by first | exact hc | simpa using hc, by first | rfl | trivial⟩⟩
      | some m =>
        simp only [addMsg]
        have hd := deliver_ws ⟨ws.set i ⟨true, false, un, 0, .postLast0, cu, bp, rd⟩, cw, gf, sl, dn, dc⟩ m
        simp only [hd.1, List.map_set]
        rw [hmod _ _ _ (by simpa using hi)]
        refine ⟨true, _, rfl, ?_, Or.inl ⟨rfl, hd.2.1⟩⟩
        have := deliver_sameQ (f := ⟨ws.set i ⟨true, false, un, 0, .postLast0, cu, bp, rd⟩, cw, gf, sl, dn, dc⟩)
          (g := ⟨ws, cw, gf, sl, dn, dc⟩) ⟨rfl, rfl, rfl⟩ m
        exact ⟨this.1, this.2.1, this.2.2⟩

/-! ### Where the bits of a message come from -/

/-- `b` is the received history with only uncertain bits changed. -/
def Alt (c : Cfg) (H : List (Bool × UInt32)) (b : List Bool) : Prop :=
  b.length = H.length ∧ ∀ x ∈ H.zip b, x.2 = x.1.1 ∨ c.maxUnc < x.1.2

theorem Alt.snoc {c : Cfg} {H} {b : List Bool} (h : Alt c H b) (x : Bool × UInt32) (y : Bool)
    (hy : y = x.1 ∨ c.maxUnc < x.2) : Alt c (H ++ [x]) (b ++ [y]) := by
  refine ⟨by simp [h.1], ?_⟩
  intro z hz
  rw [List.zip_append (by rw [h.1])] at hz
  simp only [List.mem_append, List.zip_cons_cons, List.zip_nil_right, List.mem_singleton] at hz
  rcases hz with hz | rfl
  · exact h.2 z hz
  · exact hy

theorem Alt.exists (c : Cfg) (H : List (Bool × UInt32)) : Alt c H (H.map Prod.fst) := by
  refine ⟨by simp, ?_⟩
  intro x hx
  left
  induction H with
  | nil => simp at hx
  | cons y H ih =>
    simp only [List.map_cons, List.zip_cons_cons, List.mem_cons] at hx
    rcases hx with rfl | hx
    · rfl
    · exact ih hx

/-- The run of ones after bits that hold no six in a row. -/
def onesAfter : Nat → List Bool → Nat
  | k, [] => k
  | k, b :: bs => onesAfter (if b then k + 1 else 0) bs

theorem onesAfter_append (a : List Bool) : ∀ k b, onesAfter k (a ++ b) = onesAfter (onesAfter k a) b := by
  induction a with
  | nil => intro k b; rfl
  | cons x a ih => intro k b; exact ih _ b

/-- Stuffed bits: after five ones always a zero. -/
def Stuffed : Nat → List Bool → Prop
  | k, [] => k ≤ 5
  | k, b :: bs => k ≤ 5 ∧ (k = 5 → b = false) ∧ Stuffed (if b then k + 1 else 0) bs

theorem stuffed_snoc (s : List Bool) : ∀ k x, Stuffed k s → (onesAfter k s = 5 → x = false) →
    Stuffed k (s ++ [x]) ∧ unstuff k (s ++ [x]) = unstuff k s ++ (if onesAfter k s = 5 then [] else [x]) := by
  induction s with
  | nil =>
    intro k x h hx
    simp only [Stuffed] at h
    simp only [onesAfter] at hx
    refine ⟨⟨h, hx, ?_⟩, ?_⟩
    · show (if x then k + 1 else 0) ≤ 5
      cases x
      · simp
      · by_cases h5 : k = 5
        · simp at hx; omega
        · simp; omega
    · by_cases h5 : k = 5 <;> simp [unstuff, onesAfter, h5]
  | cons y s ih =>
    intro k x h hx
    obtain ⟨h1, h2, h3⟩ := h
    obtain ⟨i1, i2⟩ := ih _ x h3 hx
    refine ⟨⟨h1, h2, i1⟩, ?_⟩
    by_cases h5 : k = 5
    · have := h2 h5
      subst this
      simp only [Bool.false_eq_true, if_false] at i2
      simp only [List.cons_append, unstuff, h5, if_true, onesAfter, Bool.false_eq_true, if_false]
      exact i2
    · simp only [List.cons_append, unstuff, h5, if_false, onesAfter]
      exact congrArg _ i2

/-- A suffix of the destuffed bits comes from a suffix of the bits. -/
theorem unstuff_suffix (s : List Bool) : ∀ k A B, Stuffed k s → unstuff k s = A ++ B →
    ∃ s1 s2 j, s = s1 ++ s2 ∧ Stuffed j s2 ∧ unstuff j s2 = B ∧ onesAfter j s2 = onesAfter k s := by
  induction s with
  | nil =>
    intro k A B h e
    simp only [unstuff] at e
    have := List.append_eq_nil_iff.mp e.symm
    exact ⟨[], [], k, rfl, h, by simp [unstuff, this.2], rfl⟩
  | cons y s ih =>
    intro k A B h e
    cases A with
    | nil => exact ⟨[], y :: s, k, rfl, h, e, rfl⟩
    | cons a A =>
      obtain ⟨h1, h2, h3⟩ := h
      by_cases h5 : k = 5
      · have := h2 h5
        subst this
        simp only [unstuff, h5, if_true] at e
        obtain ⟨s1, s2, j, e1, e2, e3, e4⟩ := ih 0 (a :: A) B h3 e
        exact ⟨false :: s1, s2, j, by simp [e1], e2, e3, by rw [e4]; rfl⟩
      · simp only [unstuff, h5, if_false, List.cons_append, List.cons.injEq] at e
        obtain ⟨s1, s2, j, e1, e2, e3, e4⟩ := ih _ A B h3 e.2
        exact ⟨y :: s1, s2, j, by simp [e1], e2, e3, by rw [e4]; rfl⟩

/-- Where the bits of a working message come from: a run of bits at the end of a history. -/
def Src (c : Cfg) (H : List (Bool × UInt32)) (w : W) : Prop :=
  match w.st with
  | .inMsg => w.bitPos < 8 ∧ w.cur.toNat < 2 ^ w.bitPos ∧ ∃ pre s k, Alt c H (pre ++ s) ∧ Stuffed k s ∧
      unstuff k s = rdBits w ∧ onesAfter k s = w.ones
  | .postLast0 => w.bitPos < 8 ∧ ∃ pre s k, Alt c H (pre ++ s ++ [true]) ∧ Stuffed k s ∧ unstuff k s = rdBits w ∧
      onesAfter k s = 5
  | _ => w.rd = []

/-- A message that is justified by the bits received: in some prefix of the history, with only
uncertain bits changed, there is a run of properly stuffed bits followed by 1 and 0 (the end of a flag) that
destuffs to whole bytes `fr` and the five or six other bits of the flag; `fr` has a good CRC and holds
the message. -/
def Sound (c : Cfg) (H : List (Bool × UInt32)) (m : List UInt8) : Prop :=
  ∃ H1 pre s k fr tail, H1 <+: H ∧ Alt c H1 (pre ++ s ++ [true, false]) ∧ Stuffed k s ∧ onesAfter k s = 5 ∧
    unstuff k s = msgLsb fr ++ tail ∧ (tail.length = 5 ∨ tail.length = 6) ∧ 3 ≤ fr.length ∧ fr.length ≤ c.maxRead ∧
    (if c.doCrc then hdlcCheck fr = true ∧ m = fr.take (fr.length - 2) else m = fr)

theorem Sound.mono {c : Cfg} {H H' m} (h : Sound c H m) (hp : H <+: H') : Sound c H' m := by
  obtain ⟨H1, pre, s, k, fr, tail, h1, h2⟩ := h
  exact ⟨H1, pre, s, k, fr, tail, h1.trans hp, h2⟩

theorem src_clear (c : Cfg) (H) (w : W) (h : Src c H w) : Src c H (clearW w) := by
  obtain ⟨iu, nw, un, on, st, cu, bp, rd⟩ := w
  cases st with
  | inMsg =>
    obtain ⟨h1, h2, pre, s, k, h3, h4, h5, h6⟩ := h
    obtain ⟨s1, s2, j, e1, e2, e3, e4⟩ := unstuff_suffix s k _ _ h4 h5
    exact ⟨h1, h2, pre ++ s1, s2, j, by rw [List.append_assoc, ← e1]; exact h3, e2, by rw [e3]; rfl, by rw [e4]; exact h6⟩
  | postLast0 =>
    obtain ⟨h1, pre, s, k, h3, h4, h5, h6⟩ := h
    obtain ⟨s1, s2, j, e1, e2, e3, e4⟩ := unstuff_suffix s k _ _ h4 h5
    exact ⟨h1, pre ++ s1, s2, j, by rw [List.append_assoc pre, ← e1]; exact h3, e2, by rw [e3]; rfl, by rw [e4]; exact h6⟩
  | _ => rfl

theorem checkMsg_some {c : Cfg} {w : W} {m : List UInt8} (h : checkMsg c w = some m) :
    3 ≤ w.rd.length ∧ (w.bitPos = 5 ∨ w.bitPos = 6) ∧
      (if c.doCrc then hdlcCheck w.rd = true ∧ m = w.rd.take (w.rd.length - 2) else m = w.rd) := by
  unfold checkMsg at h
  by_cases c1 : w.rd.length < 3
  · simp [c1] at h
  rw [if_neg c1] at h
  by_cases c2 : w.bitPos ≠ 6 ∧ w.bitPos ≠ 5
  · rw [if_pos c2] at h; simp at h
  rw [if_neg c2] at h
  refine ⟨by omega, by omega, ?_⟩
  by_cases c3 : c.doCrc = true
  · rw [if_pos c3] at h ⊢
    by_cases c4 : hdlcCheck w.rd = true
    · rw [if_pos c4] at h
      simp only [] at h
      split at h
      · simp at h
      · exact ⟨c4, (Option.some.inj h).symm⟩
    · rw [if_neg c4] at h; simp at h
  · rw [if_neg c3] at h ⊢
    exact (Option.some.inj h).symm

theorem src_step (c : Cfg) (H) (x : Bool × UInt32) (w : W) (b : Bool) (hb : b = x.1 ∨ c.maxUnc < x.2) (h : Src c H w)
    (hr : w.rd.length ≤ c.maxRead) :
    Src c (H ++ [x]) (step1 c w b).1 ∧ (step1 c w b).1.rd.length ≤ c.maxRead ∧
      ∀ m, (step1 c w b).2 = some m → Sound c (H ++ [x]) m := by
  cases hst : w.st with
  | inMsg =>
    have hsrc := h
    simp only [Src, hst] at hsrc
    obtain ⟨h1, h2, pre, s, k, h3, h4, h5, h6⟩ := hsrc
    have hi : RInv w := ⟨hst, h1, h2⟩
    by_cases ho : w.ones = 5
    · cases b with
      | false =>
        obtain ⟨w', e, i', b', o', u'⟩ := step1_stuffed c w hi ho
        rw [e]
        obtain ⟨q1, q2⟩ := stuffed_snoc s k false h4 (by simp)
        rw [h6, ho, if_pos rfl, List.append_nil] at q2
        have hrd : w'.rd.length ≤ c.maxRead := by
          have := congrArg List.length b'
          rw [rdBits_length i', rdBits_length hi] at this
          have := i'.2.1
          omega
        refine ⟨?_, hrd, by simp⟩
        simp only [Src, i'.1]
        refine ⟨i'.2.1, i'.2.2, pre, s ++ [false], k, ?_, q1, by rw [q2, h5, b'], by rw [onesAfter_append, o']; rfl⟩
        rw [← List.append_assoc]
        exact h3.snoc x false hb
      | true =>
        have e : step1 c w true = ({ w with newW := false, ones := 6, st := .postLast0 }, none) := by
          simp [step1, hst, ho]
        rw [e]
        refine ⟨?_, hr, by simp⟩
        refine ⟨h1, pre, s, k, h3.snoc x true hb, h4, h5, by rw [h6, ho]⟩
    · by_cases hfull : ((rdBits w).length + 1) / 8 ≤ c.maxRead
      · obtain ⟨w', e, i', b', o', u'⟩ := step1_payload c w b hi ho hfull
        rw [e]
        obtain ⟨q1, q2⟩ := stuffed_snoc s k b h4 (by rw [h6]; intro h; exact absurd h ho)
        rw [h6, if_neg ho] at q2
        have hrd : w'.rd.length ≤ c.maxRead := by
          have := congrArg List.length b'
          rw [rdBits_length i', List.length_append] at this
          simp only [List.length_singleton] at this
          have := i'.2.1
          omega
        refine ⟨?_, hrd, by simp⟩
        simp only [Src, i'.1]
        refine ⟨i'.2.1, i'.2.2, pre, s ++ [b], k, ?_, q1, by rw [q2, h5, b'], by rw [onesAfter_append, o', h6]; rfl⟩
        rw [← List.append_assoc]
        exact h3.snoc x b hb
      · rw [rdBits_length hi] at hfull
        have h7 : w.bitPos = 7 := by omega
        have hge : w.rd.length ≥ c.maxRead := by omega
        have e : ∃ w', step1 c w b = (w', none) ∧ w'.rd = [] ∧ w'.st = .search0 := by
          simp [step1, hst, ho, h7, hge]
        obtain ⟨w', e, e1, e2⟩ := e
        rw [e]
        exact ⟨by simp [Src, e1, e2], by simp [e1], by simp⟩
  | postLast0 =>
    have hsrc := h
    simp only [Src, hst] at hsrc
    obtain ⟨h1, pre, s, k, h3, h4, h5, h6⟩ := hsrc
    cases b with
    | true =>
      have e : step1 c w true = ({ w with newW := false, ones := w.ones + 1, rd := [], unc := 0, st := .search0 }, none) := by
        simp [step1, hst]
      rw [e]
      exact ⟨rfl, by simp, by simp⟩
    | false =>
      have e : step1 c w false = ({ w with newW := false, ones := 0, rd := [], unc := 0, st := .inMsg, cur := 0, bitPos := 0 },
          checkMsg c { w with newW := false, ones := 0 }) := by
        simp [step1, hst]
      rw [e]
      have hA := h3.snoc x false hb
      refine ⟨⟨by simp, by simp, pre ++ s ++ [true, false], [], 0, ?_, by simp [Stuffed], by simp [unstuff, rdBits], rfl⟩,
        by simp, ?_⟩
      · simpa using hA
      · intro m hm
        obtain ⟨m1, m2, m3⟩ := checkMsg_some hm
        exact ⟨H ++ [x], pre, s, k, w.rd, (lsbBits 8 w.cur.toNat).take w.bitPos, List.prefix_refl _, by simpa using hA, h4,
          h6, h5, by simp at m2 ⊢; omega, m1, hr, m3⟩
  | last0 =>
    have hsrc := h
    simp only [Src, hst] at hsrc
    cases b with
    | true =>
      have e : step1 c w true = ({ w with newW := false, ones := w.ones + 1, st := .search0 }, none) := by simp [step1, hst]
      rw [e]; exact ⟨hsrc, hr, by simp⟩
    | false =>
      have e : step1 c w false = ({ w with newW := false, ones := 0, st := .inMsg, cur := 0, bitPos := 0 }, none) := by
        simp [step1, hst]
      rw [e]
      refine ⟨⟨by simp, by simp, (H ++ [x]).map Prod.fst, [], 0, ?_, by simp [Stuffed], by simp [unstuff, rdBits, hsrc], rfl⟩, hr, by simp⟩
      simpa using Alt.exists c (H ++ [x])
  | search0 =>
    have hsrc := h
    simp only [Src, hst] at hsrc
    cases b <;> simp [step1, hst, Src, hsrc]
  | first0 =>
    have hsrc := h
    simp only [Src, hst] at hsrc
    cases b <;> simp [step1, hst, Src, hsrc]
  | pre1 =>
    have hsrc := h
    simp only [Src, hst] at hsrc
    cases b
    · simp [step1, hst, Src, hsrc]
    · by_cases h6 : w.ones = 5 <;> simp [step1, hst, Src, hsrc, h6]

/-! ### The table -/

abbrev Hist := List (Bool × UInt32)

structure Tab (c : Cfg) (N : Nat) (T : Nat → Hist) (Q : Hist) (f : Rx) : Prop where
  len : f.ws.length = N
  cnt : f.curW = used f.ws
  pos : 1 ≤ f.curW
  slot : ∀ j w, f.ws[j]? = some w → w.rd.length ≤ c.maxRead ∧ (w.inUse = true → Src c (T j) w)
  queue : ∀ s ∈ f.slots, s.1 = [] ∨ Sound c Q s.1

def upd (T : Nat → Hist) (i : Nat) (H : Hist) : Nat → Hist := fun j => if j = i then H else T j

theorem deliver_queue {c : Cfg} {Q : Hist} {f : Rx} (h : ∀ s ∈ f.slots, s.1 = [] ∨ Sound c Q s.1) (o : Option (List UInt8))
    (ho : ∀ m, o = some m → Sound c Q m) : ∀ s ∈ (addMsg f o).slots, s.1 = [] ∨ Sound c Q s.1 := by
  cases o with
  | none => exact h
  | some m =>
    simp only [addMsg, deliver]
    split
    · intro s hs
      rcases List.mem_or_eq_of_mem_set hs with hs | rfl
      · exact h s hs
      · exact Or.inr (ho m rfl)
    · exact h

theorem stepW_tab {c : Cfg} {N : Nat} {T : Nat → Hist} {H : Hist} {x : Bool × UInt32} {f : Rx} (ht : Tab c N T (H ++ [x]) f)
    {i : Nat} {w : W} (hw : f.ws[i]? = some w) (hu : w.inUse = true) (hT : T i = H) (bit : Bool)
    (hb : bit = x.1 ∨ c.maxUnc < x.2) : Tab c N (upd T i (H ++ [x])) (H ++ [x]) (stepW c f i bit) := by
  obtain ⟨clr, w', e1, e2, e3⟩ := stepW_slots c f i bit w hw hu
  obtain ⟨hr, hs⟩ := ht.slot i w hw
  obtain ⟨s1, s2, s3⟩ := src_step c H x w bit hb (by rw [← hT]; exact hs hu) hr
  have hbase : ∀ j v, (if clr then f.ws.map clearW else f.ws)[j]? = some v →
      v.rd.length ≤ c.maxRead ∧ (v.inUse = true → Src c (T j) v) := by
    intro j v hv
    cases clr with
    | false => exact ht.slot j v hv
    | true =>
      simp only [if_true, List.getElem?_map, Option.map_eq_some_iff] at hv
      obtain ⟨v0, h0, rfl⟩ := hv
      obtain ⟨a, b⟩ := ht.slot j v0 h0
      exact ⟨by simp [clearW], fun hu => src_clear c _ v0 (b hu)⟩
  have husedb : used (if clr then f.ws.map clearW else f.ws) = used f.ws := by
    cases clr <;> simp [used_clear]
  have hlen : (if clr then f.ws.map clearW else f.ws).length = f.ws.length := by cases clr <;> simp
  have hold : ∃ v, (if clr then f.ws.map clearW else f.ws)[i]? = some v ∧ v.inUse = true := by
    cases clr with
    | false => exact ⟨w, hw, hu⟩
    | true => exact ⟨clearW w, by simp [hw], hu⟩
  obtain ⟨v, hv, hvu⟩ := hold
  have hset := used_set _ i v w' hv
  rw [husedb, hvu, if_pos rfl, ← e1] at hset
  have hstep1 : (step1 c w bit).1.inUse = true := by
    rw [← hu]
    have : ∀ w : W, (step1 c w bit).1.inUse = w.inUse := by
      intro w
      simp only [step1]
      repeat' split
      all_goals rfl
    exact this w
  have hi : i < f.ws.length := (List.getElem?_eq_some_iff.mp hw).1
  have h1 := ht.cnt
  have h2 := ht.pos
  refine ⟨by rw [e1, List.length_set, hlen]; exact ht.len, ?_, ?_, ?_, ?_⟩
  · rcases e3 with ⟨rfl, e3⟩ | ⟨e3, _, e4, e5⟩
    · rw [hstep1, if_pos rfl] at hset; rw [e3]; omega
    · rw [e3] at hset; rw [e5]; simp at hset; omega
  · rcases e3 with ⟨rfl, e3⟩ | ⟨e3, _, e4, e5⟩
    · rw [e3]; exact h2
    · rw [e5]; omega
  · intro j u hj
    rw [e1] at hj
    by_cases hji : j = i
    · subst hji
      rw [List.getElem?_set_self (by omega)] at hj
      obtain rfl := Option.some.inj hj
      simp only [upd, if_true]
      rcases e3 with ⟨rfl, _⟩ | ⟨e3, e4, _⟩
      · exact ⟨s2, fun _ => s1⟩
      · exact ⟨by rw [e4]; exact hr, by simp [e3]⟩
    · rw [List.getElem?_set_ne (by omega)] at hj
      simp only [upd, hji, if_false]
      exact hbase j u hj
  · rw [e2.1]
    exact deliver_queue ht.queue _ s3

theorem used_modify (ws : List W) (i : Nat) (g : W → W) (hg : ∀ w, (g w).inUse = w.inUse) :
    used (ws.modify i g) = used ws := by
  induction ws generalizing i with
  | nil => simp [used]
  | cons x ws ih =>
    cases i with
    | zero => simp [used, List.countP_cons, hg]
    | succ i =>
      have := ih i
      simp only [used, List.modify_succ_cons, List.countP_cons] at this ⊢
      omega

theorem Tab.modUnc {c : Cfg} {N T Q f} (h : Tab c N T Q f) (i : Nat) (u : UInt32) :
    Tab c N T Q { f with ws := f.ws.modify i fun w => { w with unc := u } } := by
  refine ⟨by simp [h.len], ?_, h.pos, ?_, h.queue⟩
  · show f.curW = used (f.ws.modify i fun w => { w with unc := u })
    rw [used_modify f.ws i (fun w => { w with unc := u }) (fun _ => rfl)]; exact h.cnt
  · intro j w hj
    simp only [List.getElem?_modify] at hj
    cases hv : f.ws[j]? with
    | none => simp [hv] at hj
    | some v =>
      rw [hv] at hj
      obtain ⟨a, b⟩ := h.slot j v hv
      by_cases hij : i = j
      · simp [hij] at hj; subst hj; exact ⟨a, b⟩
      · simp [hij] at hj; subst hj; exact ⟨a, b⟩

/-- Putting a copy in slot `i`. -/
theorem Tab.copy {c : Cfg} {N T Q f} (h : Tab c N T Q f) {i : Nat} {w w' : W} {H : Hist} (hw : f.ws[i]? = some w)
    (hu : w'.inUse = true) (hr : w'.rd.length ≤ c.maxRead) (hs : Src c H w') (cw : Nat)
    (hc : cw + (if w.inUse then 1 else 0) = f.curW + 1) (g : Bool) :
    Tab c N (upd T i H) Q { f with ws := f.ws.set i w', curW := cw, gotFlag := g } := by
  have hset := used_set f.ws i w w' hw
  rw [hu, if_pos rfl] at hset
  have hi : i < f.ws.length := (List.getElem?_eq_some_iff.mp hw).1
  have h1 := h.cnt
  have h2 := h.pos
  refine ⟨by simp [h.len], by simp only; omega, ?_, ?_, h.queue⟩
  · simp only
    have := used_pos f.ws
    split at hc <;> omega
  · intro j v hj
    simp only at hj
    by_cases hji : j = i
    · subst hji
      rw [List.getElem?_set_self hi] at hj
      obtain rfl := Option.some.inj hj
      simp only [upd, if_true]
      exact ⟨hr, fun _ => hs⟩
    · rw [List.getElem?_set_ne (by omega)] at hj
      simp only [upd, hji, if_false]
      exact h.slot j v hj

theorem Tab.ext {c : Cfg} {N T T' Q f} (h : Tab c N T Q f) (e : ∀ j, j < N → T j = T' j) : Tab c N T' Q f := by
  refine ⟨h.len, h.cnt, h.pos, ?_, h.queue⟩
  intro j w hj
  have : j < N := by rw [← h.len]; exact (List.getElem?_eq_some_iff.mp hj).1
  rw [← e j this]
  exact h.slot j w hj

theorem freeSlot_some {ws : List W} {n i : Nat} (h : freeSlot ws n = some i) :
    i ≠ n ∧ ∃ w, ws[i]? = some w ∧ w.inUse = false := by
  have := List.find?_some h
  simp only [Bool.and_eq_true, decide_eq_true_eq, Bool.not_eq_true', ne_eq] at this
  obtain ⟨h1, h2⟩ := this
  refine ⟨h1, ?_⟩
  cases hv : ws[i]? with
  | none => simp [hv] at h2
  | some w => exact ⟨w, rfl, by simpa [hv] using h2⟩

theorem freeSlot_none {ws : List W} {n : Nat} (h : freeSlot ws n = none) (i : Nat) (w : W) (hi : i ≠ n)
    (hw : ws[i]? = some w) : w.inUse = true := by
  have hlt : i < ws.length := (List.getElem?_eq_some_iff.mp hw).1
  have := List.find?_eq_none.mp h i (by simpa using hlt)
  simpa [hi, hw] using this

theorem minUnc_lt (ws : List W) (n : Nat) (h : 0 < ws.length) : (minUnc ws n).2 < ws.length := by
  have key : ∀ (l : List Nat) (r : UInt32 × Nat), (∀ i ∈ l, i < ws.length) → r.2 < ws.length →
      (l.foldl (fun r i =>
        match ws[i]? with
        | some w => if i ≠ n ∧ w.unc < r.1 then (w.unc, i) else r
        | none => r) r).2 < ws.length := by
    intro l
    induction l with
    | nil => intro r _ h; exact h
    | cons i l ih =>
      intro r hl hr
      rw [List.foldl_cons]
      apply ih _ (fun j hj => hl j (by simp [hj]))
      split
      · split
        · exact hl i (by simp)
        · exact hr
      · exact hr
  exact key _ _ (by simp) h

/-- History of the slots while bit `x` is handled: those before `n` are done. -/
def TN (H : Hist) (x : Bool × UInt32) (n : Nat) : Nat → Hist := fun j => if j < n then H ++ [x] else H

theorem stepW_len (c : Cfg) (f : Rx) (i : Nat) (bit : Bool) {w : W} (hw : f.ws[i]? = some w) (hu : w.inUse = true) (j : Nat)
    (hj : j ≠ i) (v : W) (hv : f.ws[j]? = some v) :
    ∃ v', (stepW c f i bit).ws[j]? = some v' ∧ v'.inUse = v.inUse := by
  obtain ⟨clr, w', e1, _⟩ := stepW_slots c f i bit w hw hu
  rw [e1, List.getElem?_set_ne (by omega)]
  cases clr with
  | false => exact ⟨v, hv, rfl⟩
  | true => exact ⟨clearW v, by simp [hv], rfl⟩

theorem addAt_tab {c : Cfg} {N : Nat} {H : Hist} {x : Bool × UInt32} {n : Nat} {f : Rx} {w : W}
    (ht : Tab c N (TN H x n) (H ++ [x]) f) (hw : f.ws[n]? = some w) (hu : w.inUse = true) (hx : c.maxUnc < x.2)
    {i : Nat} {v : W} (hv : f.ws[i]? = some v) (cw : Nat) (hc : cw + 1 + (if v.inUse then 1 else 0) = f.curW + 1)
    (bit : Bool) (t a : UInt32) :
    Tab c N (TN H x n) (H ++ [x]) (addAt c { f with curW := cw } n i w bit t a).1 ∧
      ∃ w', (addAt c { f with curW := cw } n i w bit t a).1.ws[n]? = some w' ∧ w'.inUse = true := by
  have hlt : i < f.ws.length := (List.getElem?_eq_some_iff.mp hv).1
  obtain ⟨hr, hs⟩ := ht.slot n w hw
  have hs := hs hu
  simp only [TN, Nat.lt_irrefl, if_false] at hs
  have hcopy := ht.copy (w' := { w with inUse := true, unc := a, newW := true }) (H := H) hv rfl hr hs (cw + 1) hc f.gotFlag
  simp only [addAt]
  by_cases hin : i < n
  · rw [if_pos hin]
    have hslot : (f.ws.set i { w with inUse := true, unc := a, newW := true })[i]? =
        some { w with inUse := true, unc := a, newW := true } := List.getElem?_set_self hlt
    have h2 := stepW_tab hcopy (i := i) hslot rfl (by simp [upd]) (!bit) (Or.inr hx)
    refine ⟨h2.ext ?_, ?_⟩
    · intro j _
      simp only [upd, TN]
      by_cases hj : j = i
      · subst hj; simp [hin]
      · simp [hj]
    · have hwn : (f.ws.set i { w with inUse := true, unc := a, newW := true })[n]? = some w := by
        rw [List.getElem?_set_ne (by omega)]; exact hw
      obtain ⟨v', e1, e2⟩ := stepW_len c
        { f with ws := f.ws.set i { w with inUse := true, unc := a, newW := true }, curW := cw + 1 } i (!bit) hslot rfl n
        (by omega) w hwn
      exact ⟨v', e1, by rw [e2, hu]⟩
  · rw [if_neg hin]
    refine ⟨((hcopy.modUnc i t).modUnc n a).ext ?_, ?_⟩
    · intro j _
      simp only [upd, TN]
      by_cases hj : j = i
      · subst hj; simp [hin]
      · simp [hj]
    · simp only [List.getElem?_modify]
      by_cases hni : i = n
      · subst hni; exact ⟨{ w with inUse := true, unc := a, newW := true }, by simp [hlt], rfl⟩
      · exact ⟨{ w with unc := a }, by simp [hni, List.getElem?_set_ne hni, hw], hu⟩

theorem split_tab {c : Cfg} {N : Nat} {H : Hist} {x : Bool × UInt32} {n : Nat} {f : Rx} {w : W}
    (ht : Tab c N (TN H x n) (H ++ [x]) f) (hw : f.ws[n]? = some w) (hu : w.inUse = true) (hx : c.maxUnc < x.2)
    (bit : Bool) (u : UInt32) :
    Tab c N (TN H x n) (H ++ [x]) (split c f n w bit u).1 ∧
      ∃ w', (split c f n w bit u).1.ws[n]? = some w' ∧ w'.inUse = true := by
  have hlt : n < f.ws.length := (List.getElem?_eq_some_iff.mp hw).1
  obtain ⟨hr, hs⟩ := ht.slot n w hw
  have hs := hs hu
  simp only [split]
  have h0 : Tab c N (TN H x n) (H ++ [x]) { f with ws := f.ws.set n { w with unc := w.unc + u } } := by
    have := ht.copy (w' := { w with unc := w.unc + u }) (H := TN H x n n) hw hu hr hs f.curW (by simp [hu]) f.gotFlag
    exact this.ext (by intro j _; simp only [upd]; split <;> simp_all)
  have hn : (f.ws.set n { w with unc := w.unc + u })[n]? = some { w with unc := w.unc + u } := List.getElem?_set_self hlt
  cases hf : freeSlot (f.ws.set n { w with unc := w.unc + u }) n with
  | some i =>
    obtain ⟨h1, v, h2, h3⟩ := freeSlot_some hf
    exact addAt_tab h0 hn hu hx h2 f.curW (by simp [h3]) bit _ _
  | none =>
    simp only []
    split
    · have hm := minUnc_lt (f.ws.set n { w with unc := w.unc + u }) n (by simp; omega)
      generalize (minUnc (f.ws.set n { w with unc := w.unc + u }) n).2 = i at *
      have hv : ∃ v, (f.ws.set n { w with unc := w.unc + u })[i]? = some v ∧ v.inUse = true := by
        refine ⟨_, List.getElem?_eq_getElem hm, ?_⟩
        by_cases hi : i = n
        · subst hi; simp [hu]
        · exact freeSlot_none hf i _ hi (List.getElem?_eq_getElem hm)
      obtain ⟨v, hv, hvu⟩ := hv
      exact addAt_tab h0 hn hu hx hv (f.curW - 1) (by have := ht.pos; simp [hvu]; omega) bit _ _
    · exact ⟨h0, _, hn, hu⟩

theorem processW_tab {c : Cfg} {N : Nat} {H : Hist} {x : Bool × UInt32} {n : Nat} {f : Rx} (hn : n < N)
    (ht : Tab c N (TN H x n) (H ++ [x]) f) : Tab c N (TN H x (n + 1)) (H ++ [x]) (processW c f n x.1 x.2) := by
  have hlt : n < f.ws.length := by rw [ht.len]; exact hn
  have hw : f.ws[n]? = some f.ws[n] := List.getElem?_eq_getElem hlt
  generalize f.ws[n] = w at hw
  have hext : ∀ j, upd (TN H x n) n (H ++ [x]) j = TN H x (n + 1) j := by
    intro j
    simp only [upd, TN]
    by_cases h1 : j = n
    · subst h1; simp
    · by_cases h2 : j < n
      · simp [h1, h2, Nat.lt_succ_of_lt h2]
      · have : ¬ j < n + 1 := by omega
        simp [h1, h2, this]
  simp only [processW, hw]
  by_cases hu : w.inUse = true
  · simp only [hu, Bool.not_true, Bool.false_eq_true, if_false]
    split
    · rename_i hsp
      obtain ⟨t1, w', h1, h2⟩ := split_tab ht hw hu hsp.1 x.1 x.2
      exact (stepW_tab t1 h1 h2 (by simp [TN]) _ (Or.inr hsp.1)).ext (fun j _ => hext j)
    · exact (stepW_tab ht hw hu (by simp [TN]) _ (Or.inl rfl)).ext (fun j _ => hext j)
  · have hu : w.inUse = false := by simpa using hu
    simp only [hu, Bool.not_false, if_true]
    refine ⟨ht.len, ht.cnt, ht.pos, ?_, ht.queue⟩
    intro j v hj
    obtain ⟨a, b⟩ := ht.slot j v hj
    refine ⟨a, fun hvu => ?_⟩
    have hne : j ≠ n := by
      rintro rfl
      rw [hw] at hj
      obtain rfl := Option.some.inj hj
      simp [hu] at hvu
    have := b hvu
    rw [← hext j]
    simpa [upd, hne] using this

theorem processBit_tab {c : Cfg} {N : Nat} {H : Hist} (x : Bool × UInt32) {f : Rx} (ht : Tab c N (fun _ => H) H f) :
    Tab c N (fun _ => H ++ [x]) (H ++ [x]) (processBit c f x.1 x.2) := by
  have h0 : Tab c N (TN H x 0) (H ++ [x]) { f with gotFlag := false } := by
    refine ⟨ht.len, ht.cnt, ht.pos, ?_, ?_⟩
    · intro j w hj; simpa [TN] using ht.slot j w hj
    · intro s hs
      rcases ht.queue s hs with h | h
      · exact Or.inl h
      · exact Or.inr (h.mono (List.prefix_append _ _))
  have key : ∀ n, n ≤ N → Tab c N (TN H x n) (H ++ [x])
      ((List.range n).foldl (fun f i => processW c f i x.1 x.2) { f with gotFlag := false }) := by
    intro n
    induction n with
    | zero => intro _; exact h0
    | succ n ih =>
      intro hn
      rw [List.range_succ, List.foldl_append]
      exact processW_tab (by omega) (ih (by omega))
  have := key N (Nat.le_refl _)
  rw [processBit, ht.len]
  exact this.ext (by intro j hj; simp [TN, hj])

/-- What can happen to a receiver: a bit with its uncertainty, or the upper layer being offered a message. -/
inductive Ev where
  | bit (x : Bool × UInt32)
  | up (acc : Nat)

def runEv (c : Cfg) (f : Rx) : List Ev → Option Rx
  | [] => some f
  | .bit x :: es => runEv c (processBit c f x.1 x.2) es
  | .up acc :: es => do
    let (f, _) ← handUp f acc
    runEv c f es

/-- The bits of an event list. -/
def bitsOf : List Ev → Hist
  | [] => []
  | .bit x :: es => x :: bitsOf es
  | .up _ :: es => bitsOf es

theorem runEv_tab {c : Cfg} {N : Nat} (es : List Ev) : ∀ (H : Hist) (f f' : Rx), Tab c N (fun _ => H) H f →
    runEv c f es = some f' → Tab c N (fun _ => H ++ bitsOf es) (H ++ bitsOf es) f' := by
  induction es with
  | nil => intro H f f' h e; simp [runEv] at e; subst e; simpa [bitsOf] using h
  | cons ev es ih =>
    intro H f f' h e
    cases ev with
    | bit x =>
      have := ih (H ++ [x]) _ _ (processBit_tab x h) e
      simpa [bitsOf] using this
    | up acc =>
      simp only [runEv, Option.bind_eq_bind, Option.bind_eq_some_iff] at e
      obtain ⟨⟨f1, o⟩, e1, e2⟩ := e
      apply ih H f1 f' ?_ e2
      unfold handUp at e1
      split at e1
      · split at e1
        · simp at e1
        · rename_i d pos hsl
          have hmem : (d, pos) ∈ f.slots := List.mem_of_getElem? hsl
          split at e1
          · simp at e1
            obtain ⟨rfl, _⟩ := e1
            refine ⟨h.len, h.cnt, h.pos, h.slot, ?_⟩
            intro s hs
            rcases List.mem_or_eq_of_mem_set hs with hs | rfl
            · exact h.queue s hs
            · exact Or.inl rfl
          · simp at e1
            obtain ⟨rfl, _⟩ := e1
            refine ⟨h.len, h.cnt, h.pos, h.slot, ?_⟩
            intro s hs
            rcases List.mem_or_eq_of_mem_set hs with hs | rfl
            · exact h.queue s hs
            · exact h.queue (d, pos) hmem
      · simp at e1
        obtain ⟨rfl, _⟩ := e1
        exact h

/-- **C54.**  After any bits with any uncertainties, and any hand-overs to the user, the number of
working messages is the count the code keeps and is at least 1, no working message is longer
than its buffer, and every message in the delivery queue is justified by the bits received, with
only uncertain bits changed, and has a good CRC (`Sound`). -/
theorem C54_table (c : Cfg) (N : Nat) (hN : 1 ≤ N) (es : List Ev) (f : Rx) (e : runEv c (Rx.alloc N) es = some f) :
    f.ws.length = N ∧ f.curW = f.ws.countP (·.inUse) ∧ 1 ≤ f.curW ∧ (∀ w ∈ f.ws, w.rd.length ≤ c.maxRead) ∧
      ∀ m p, (m, p) ∈ f.slots → m ≠ [] → Sound c (bitsOf es) m := by
  have h0 : Tab c N (fun _ => []) [] (Rx.alloc N) := by
    refine ⟨by simp [Rx.alloc]; omega, ?_, by simp [Rx.alloc], ?_, ?_⟩
    · simp [Rx.alloc, used, List.countP_replicate]
    · intro j w hj
      have hm := List.mem_of_getElem? hj
      simp only [Rx.alloc, List.mem_cons] at hm
      rcases hm with rfl | hm
      · exact ⟨by simp, fun _ => rfl⟩
      · rw [List.eq_of_mem_replicate hm]; exact ⟨by simp, by simp⟩
    · intro s hs
      simp only [Rx.alloc] at hs
      rw [List.eq_of_mem_replicate hs]; exact Or.inl rfl
  have h := runEv_tab es [] _ _ h0 e
  rw [List.nil_append] at h
  refine ⟨h.len, h.cnt, h.pos, ?_, ?_⟩
  · intro w hw
    obtain ⟨j, hj, rfl⟩ := List.getElem_of_mem hw
    exact (h.slot j _ (List.getElem?_eq_getElem hj)).1
  · intro m p hm hne
    rcases h.queue (m, p) hm with h1 | h1
    · exact absurd h1 hne
    · exact h1

/-- One uncertain bit received wrong: the frame ff ff 0f is still delivered, and two working
messages exist in between. -/
example :
    let bits := (msgLsb [0x7e, 0xdf, 0xf7, 0x7d, 0x80, 0x70, 0xe0, 0x07]).map fun b => (b, (0 : UInt32))
    let es := (bits.set 20 (false, 40)).map Ev.bit
    bits[20]? = some (true, 0) ∧
    (runEv exCfg (Rx.alloc 4) (es.take 21)).map (·.curW) = some 2 ∧
    (runEv exCfg (Rx.alloc 4) es).map (fun f => (f.slots.head?, f.dnum)) = some (some ([0xff, 0xff, 0x0f], 0), 1) := by
  decide +kernel

end Gensio.Hdlc
